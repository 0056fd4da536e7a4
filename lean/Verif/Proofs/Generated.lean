import Verif.Spec.Generated
import Verif.Proofs.IdString
import Verif.Proofs.HeaderLines

/-! # Generated files (C74) -/

namespace Verif.Generated

open Verif.Spec

variable {t : Tools} {allowed : Input → Prop}

/-- The first line without its end. -/
def headerLine (t : Tools) (x : Input) : Str := (py"# Version of tatsu: ") ++ x.1 ++ (py", SHA256 of grammar file: ") ++ t.sha x.2

theorem header_eq (t : Tools) (x : Input) : t.header x = headerLine t x ++ py"\n" := rfl

theorem headerLine_newline (hd : Distinct t allowed) {x : Input} (hx : allowed x) : '\n' ∉ headerLine t x := by
  obtain ⟨h1, h2⟩ := hd.line x hx
  unfold headerLine
  simp only [List.mem_append, not_or]
  exact ⟨⟨⟨by decide, h1⟩, by decide⟩, h2⟩

theorem readline_line {l : Str} (h : '\n' ∉ l) (rest : Str) : readline (l ++ '\n' :: rest) = l ++ py"\n" := by
  induction l with
  | nil => rfl
  | cons c l ih =>
    have hc : c ≠ '\n' := fun e => h (by simp [e])
    rw [List.cons_append, readline, if_neg hc, ih fun hm => h (List.mem_cons_of_mem _ hm)]
    rfl

/-- The rest of the text after a line that was read. -/
theorem readline_rest (s : Str) : ∃ rest, s = readline s ++ rest := by
  induction s with
  | nil => exact ⟨[], rfl⟩
  | cons c s ih =>
    obtain ⟨rest, h⟩ := ih
    unfold readline
    by_cases hc : c = '\n'
    · rw [if_pos hc]; exact ⟨s, rfl⟩
    · rw [if_neg hc]
      exact ⟨rest, by rw [List.cons_append, ← h]⟩

theorem readline_none {l : Str} (h : '\n' ∉ l) : '\n' ∉ readline l := by
  induction l with
  | nil => exact h
  | cons c l ih =>
    have hc : c ≠ '\n' := fun e => h (by simp [e])
    rw [readline, if_neg hc]
    simp only [List.mem_cons, not_or]
    exact ⟨fun e => hc e.symm, ih fun hm => h (List.mem_cons_of_mem _ hm)⟩

theorem append_comma : ∀ {a b u v : Str}, ',' ∉ a → ',' ∉ b → a ++ ',' :: u = b ++ ',' :: v → a = b ∧ u = v
  | [], [], _, _, _, _, h => ⟨rfl, (List.cons.inj h).2⟩
  | [], c :: b, _, _, _, hb, h => absurd (List.cons.inj h).1 fun e => hb (by simp [← e])
  | c :: a, [], _, _, ha, _, h => absurd (List.cons.inj h).1 fun e => ha (by simp [e])
  | c :: a, d :: b, _, _, ha, hb, h => by
    obtain ⟨h1, h2⟩ := List.cons.inj h
    obtain ⟨h3, h4⟩ := append_comma (fun hm => ha (List.mem_cons_of_mem _ hm)) (fun hm => hb (List.mem_cons_of_mem _ hm)) h2
    exact ⟨by rw [h1, h3], h4⟩

theorem header_inj (hd : Distinct t allowed) {x y : Input} (hx : allowed x) (hy : allowed y) (h : t.header x = t.header y) : x = y := by
  obtain ⟨v, g⟩ := x
  obtain ⟨v', g'⟩ := y
  unfold Tools.header at h
  simp only [List.append_assoc] at h
  have h2 := append_comma (u := (py" SHA256 of grammar file: ") ++ (t.sha g ++ py"\n")) (v := (py" SHA256 of grammar file: ") ++ (t.sha g' ++ py"\n"))
    (hd.comma _ hx) (hd.comma _ hy) (List.append_cancel_left h)
  obtain ⟨rfl, h3⟩ := h2
  have h4 := List.append_cancel_right (List.append_cancel_left h3)
  have h5 : g = g' := hd.hash _ _ hx hy h4
  rw [h5]

theorem modelText_eq (t : Tools) (x : Input) : ∃ rest, t.modelText x = headerLine t x ++ '\n' :: rest := by
  refine ⟨match t.modelBody x with | .ok b => b | .error _ => [], ?_⟩
  rw [Tools.modelText, header_eq, List.append_assoc]
  rfl

theorem sourceText_eq (t : Tools) (x : Input) : ∃ rest, t.sourceText x = headerLine t x ++ '\n' :: rest := by
  refine ⟨(py"# type: ignore\n") ++ match t.sourceBody x with | .ok b => b | .error _ => [], ?_⟩
  rw [Tools.sourceText, header_eq, List.append_assoc, List.append_assoc]
  rfl

/-! ## What is written -/

theorem replaced_iff {o : Char} {os new s r : Str} : Replaced (o :: os) new s r ↔ replaceAll (o :: os) new s = r := by
  constructor
  · intro h
    induction h with
    | nil => rfl
    | found _ ih => rw [replaceAll_match, ih]
    | kept h _ ih => rw [replaceAll_step _ _ _ _ h, ih]
  · rintro rfl
    suffices h : ∀ (n : Nat) (s : Str), s.length ≤ n → Replaced (o :: os) new s (replaceAll (o :: os) new s) from
      h _ _ (Nat.le_refl _)
    intro n
    induction n with
    | zero =>
      intro s hs
      rw [List.eq_nil_of_length_eq_zero (by omega : s.length = 0)]
      exact .nil
    | succ n ih =>
      intro s hs
      cases s with
      | nil => exact .nil
      | cons c s =>
        by_cases h : o :: os <+: c :: s
        · obtain ⟨rest, hr⟩ := h
          rw [← hr, replaceAll_match]
          refine .found (ih _ ?_)
          rw [← hr] at hs
          simp at hs
          omega
        · rw [replaceAll_step _ _ _ _ h]
          exact .kept h (ih _ (by simpa using hs))

theorem isInfix_iff (needle : Str) : ∀ s : Str, isInfix needle s = true ↔ needle <:+: s
  | [] => by simp [isInfix]
  | c :: s => by
    rw [isInfix, Bool.or_eq_true, isInfix_iff needle s, List.isPrefixOf_iff_prefix, List.infix_cons_iff]

theorem modelBody_iff {x : Input} {m : Str} : t.modelBody x = .ok m ↔ ModelOf t x m := by
  constructor
  · intro h
    obtain ⟨g, hg, h⟩ := resBind_ok h
    by_cases hi : isInfix fixupFrom g
    · rw [if_pos hi] at h
      exact ⟨g, hg, (isInfix_iff _ _).mp hi, replaced_iff.mpr (Except.ok.inj h)⟩
    · rw [if_neg hi] at h
      cases h
  · rintro ⟨g, hg, hi, hr⟩
    unfold Tools.modelBody
    rw [hg]
    simp only [Bind.bind, Except.bind]
    have hi' : isInfix fixupFrom g = true := (isInfix_iff _ _).mpr hi
    rw [if_pos hi']
    exact congrArg _ (replaced_iff.mp hr)

theorem sourceBody_iff {x : Input} {s : Str} : t.sourceBody x = .ok s ↔ SourceOf t x s := by
  constructor
  · intro h
    obtain ⟨g, hg, h⟩ := resBind_ok h
    exact ⟨g, hg, replaced_iff.mpr (Except.ok.inj h)⟩
  · rintro ⟨g, hg, hr⟩
    unfold Tools.sourceBody
    rw [hg]
    exact congrArg _ (replaced_iff.mp hr)

theorem header_first (t : Tools) (x : Input) : t.header x = firstLine t x := rfl

/-- The files are current, in terms of the model. -/
theorem current_of {x : Input} {f : Files} {m s : Str} (hm : t.modelBody x = .ok m) (hs : t.sourceBody x = .ok s)
    (h1 : f.model = some (t.header x ++ m)) (h2 : f.source = some (t.header x ++ (py"# type: ignore\n") ++ s)) : Current t x f :=
  ⟨m, s, modelBody_iff.mp hm, sourceBody_iff.mp hs, h1, h2⟩

theorem not_torn_model {x : Input} {n : Nat} (h : ¬ Torn t x (.writeModel n)) :
    ¬ ((t.header x).length ≤ n ∧ n < (t.modelText x).length) := by
  rintro ⟨h1, h2⟩
  unfold Tools.modelText at h2
  cases hb : t.modelBody x with
  | ok m => exact h ⟨h1, m, modelBody_iff.mp hb, by rw [hb] at h2; exact h2⟩
  | error e =>
    rw [hb] at h2
    simp at h2
    omega

theorem not_torn_source {x : Input} {n : Nat} (h : ¬ Torn t x (.writeSource n)) :
    ¬ ((t.header x).length ≤ n ∧ n < (t.sourceText x).length) := by
  rintro ⟨h1, h2⟩
  unfold Tools.sourceText at h2
  cases hb : t.sourceBody x with
  | ok s => exact h ⟨h1, .inr ⟨s, sourceBody_iff.mp hb, by rw [hb] at h2; exact h2⟩⟩
  | error e => exact h ⟨h1, .inl (by rw [hb] at h2; simpa [header_first] using h2)⟩

/-- What `model.py` may hold. -/
def ModelOk (t : Tools) (allowed : Input → Prop) (f : Option Str) : Prop :=
  ∀ c, f = some c → '\n' ∉ c ∨ ∃ x, allowed x ∧ c = t.modelText x

/-- What `parser.py` may hold. -/
def SourceOk (t : Tools) (allowed : Input → Prop) (f : Option Str) : Prop :=
  ∀ c, f = some c → '\n' ∉ c ∨ ∃ x, allowed x ∧ c = t.sourceText x ∧ ∃ b, t.modelBody x = .ok b

/-- What is the case while a process runs. -/
def Running (t : Tools) (allowed : Input → Prop) (x : Input) : Phase × Files → Prop
  | (.start, f) => ModelOk t allowed f.model ∧ SourceOk t allowed f.source
  | (.writeModel n, f) => f.model = some ((t.modelText x).take n) ∧ SourceOk t allowed f.source
  | (.writeSource n, f) => f.model = some (t.modelText x) ∧ f.source = some ((t.sourceText x).take n) ∧ ∃ b, t.modelBody x = .ok b
  | (.done r, f) => ModelOk t allowed f.model ∧ SourceOk t allowed f.source ∧ (r = .ok () → Current t x f)

theorem readline_text (hd : Distinct t allowed) {x y : Input} (hx : allowed x) (hy : allowed y) {c rest : Str}
    (h : c = headerLine t x ++ '\n' :: rest) (hr : readline c = t.header y) : x = y := by
  rw [h, readline_line (headerLine_newline hd hx), ← header_eq] at hr
  exact header_inj hd hx hy hr

theorem running_step (hd : Distinct t allowed) (hg : ∀ x, allowed x → ∀ m, ModelOf t x m → ∃ s, SourceOf t x s) {x : Input}
    (hx : allowed x) {a b : Phase × Files} (h : Running t allowed x a) (hs : Step t x a b) : Running t allowed x b := by
  cases hs with
  | @skip f hn =>
    obtain ⟨h1, h2⟩ := h
    refine ⟨h1, h2, fun _ => ?_⟩
    obtain ⟨m, s⟩ := f
    unfold Tools.needRegen at hn
    obtain ⟨n1, n2⟩ := Bool.or_eq_false_iff.mp hn
    have no : ∀ {c : Str}, '\n' ∉ c → readline c ≠ t.header x := by
      intro c hc e
      have := readline_none hc
      rw [e, header_eq] at this
      exact this (by simp)
    cases m with
    | none => cases n1
    | some m =>
      cases s with
      | none => cases n2
      | some s =>
        simp only [outdated, bne_eq_false_iff_eq] at n1 n2
        rcases h1 m rfl with hc | ⟨y, hy, e1⟩
        · exact absurd n1 (no hc)
        rcases h2 s rfl with hc | ⟨z, hz, e2, k, hk⟩
        · exact absurd n2 (no hc)
        obtain ⟨r1, e3⟩ := modelText_eq t y
        obtain ⟨r2, e4⟩ := sourceText_eq t z
        obtain rfl := readline_text hd hy hx (e1.trans e3) n1
        obtain rfl := readline_text hd hz hx (e2.trans e4) n2
        obtain ⟨l, hl⟩ := hg _ hx k (modelBody_iff.mp hk)
        have hl := sourceBody_iff.mpr hl
        refine current_of hk hl ?_ ?_
        · rw [e1, Tools.modelText, hk]
        · rw [e2, Tools.sourceText, hl]
  | openModel hn => exact ⟨rfl, h.2⟩
  | writeModel hn hm => exact ⟨rfl, h.2⟩
  | @modelFails f e hb =>
    obtain ⟨h1, h2⟩ := h
    refine ⟨?_, h2, fun e => by cases e⟩
    intro c hc
    rw [h1, List.take_length] at hc
    exact .inr ⟨x, hx, (Option.some.inj hc).symm⟩
  | @openSource f b hb =>
    obtain ⟨h1, h2⟩ := h
    rw [List.take_length] at h1
    exact ⟨h1, rfl, b, hb⟩
  | writeSource hn hm => exact ⟨h.1, rfl, h.2.2⟩
  | sourceFails he =>
    obtain ⟨h1, h2, b, hb⟩ := h
    obtain ⟨c, hc⟩ := hg x hx b (modelBody_iff.mp hb)
    rw [sourceBody_iff.mpr hc] at he
    cases he
  | @finish f b hb =>
    obtain ⟨h1, h2, k, hk⟩ := h
    rw [List.take_length] at h2
    refine ⟨fun c hc => .inr ⟨x, hx, ?_⟩, fun c hc => .inr ⟨x, hx, ?_, k, hk⟩, fun _ => current_of hk hb ?_ ?_⟩
    · rw [h1] at hc; exact (Option.some.inj hc).symm
    · rw [h2] at hc; exact (Option.some.inj hc).symm
    · rw [h1, Tools.modelText, hk]
    · rw [h2, Tools.sourceText, hb]

theorem running_steps (hd : Distinct t allowed) (hg : ∀ x, allowed x → ∀ m, ModelOf t x m → ∃ s, SourceOf t x s) {x : Input}
    (hx : allowed x) {a b : Phase × Files} (h : Running t allowed x a) (hs : Steps t x a b) : Running t allowed x b := by
  induction hs with
  | refl => exact h
  | tail _ hs ih => exact running_step hd hg hx ih hs

/-- Part of a text that has its first line only if it is whole. -/
theorem take_untorn {l text rest : Str} (hl : '\n' ∉ l) (he : text = l ++ '\n' :: rest) {n : Nat}
    (h : ¬ ((l ++ py"\n").length ≤ n ∧ n < text.length)) : '\n' ∉ text.take n ∨ text.take n = text := by
  by_cases h1 : text.length ≤ n
  · exact .inr (List.take_of_length_le h1)
  · refine .inl fun hm => hl ?_
    have h2 : n ≤ l.length := by
      simp only [List.length_append, List.length_cons, List.length_nil] at h
      omega
    rw [he, List.take_append_of_le_length h2] at hm
    exact List.mem_of_mem_take hm

theorem running_killed (hd : Distinct t allowed) {x : Input} (hx : allowed x) {p : Phase} {f : Files} (h : Running t allowed x (p, f))
    (hp : ¬ Torn t x p) : ModelOk t allowed f.model ∧ SourceOk t allowed f.source := by
  cases p with
  | start => exact h
  | writeModel n =>
    refine ⟨fun c hc => ?_, h.2⟩
    obtain ⟨rest, e⟩ := modelText_eq t x
    rw [h.1] at hc
    obtain rfl := Option.some.inj hc
    rcases take_untorn (headerLine_newline hd hx) e (not_torn_model hp) with h1 | h1
    · exact .inl h1
    · exact .inr ⟨x, hx, h1⟩
  | writeSource n =>
    obtain ⟨h1, h2, h3⟩ := h
    refine ⟨fun c hc => ?_, fun c hc => ?_⟩
    · rw [h1] at hc
      exact .inr ⟨x, hx, (Option.some.inj hc).symm⟩
    · obtain ⟨rest, e⟩ := sourceText_eq t x
      rw [h2] at hc
      obtain rfl := Option.some.inj hc
      rcases take_untorn (headerLine_newline hd hx) e (not_torn_source hp) with h4 | h4
      · exact .inl h4
      · exact .inr ⟨x, hx, h4, h3⟩
  | done r => exact ⟨h.1, h.2.1⟩

theorem history_files (hd : Distinct t allowed) (hg : ∀ x, allowed x → ∀ m, ModelOf t x m → ∃ s, SourceOf t x s) {f f' : Files}
    (h : History t allowed (fun x p => ¬ Torn t x p) f f') (hf : ModelOk t allowed f.model ∧ SourceOk t allowed f.source) :
    ModelOk t allowed f'.model ∧ SourceOk t allowed f'.source := by
  induction h with
  | none => exact hf
  | ended hx _ h ih =>
    have := running_steps hd hg hx (a := (.start, _)) ih h
    exact ⟨this.1, this.2.1⟩
  | killed hx _ h hp ih => exact running_killed hd hx (running_steps hd hg hx (a := (.start, _)) ih h) hp

end Verif.Generated
