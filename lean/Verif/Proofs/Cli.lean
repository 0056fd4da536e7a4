import Verif.Spec.Cli
import Verif.Proofs.Dict
import Verif.Proofs.Pipeline
import Verif.Proofs.PyBasic
import Verif.Proofs.Cache
import Verif.Proofs.ParsedArticle

/-! # The command line -/

namespace Verif
open Spec

theorem output_writes {p : Printers} {f : Format} {o : Output} :
    (p.output f o).stop = none ↔ ∃ text, Writes p f o text := by
  constructor
  · intro h
    cases f <;> cases o <;> simp only [Printers.output, htmlFile] at h ⊢
    · rename_i a
      exact ⟨_, .txtAct (ls := (writeTxt p.wrap (.act a)).yields) (by rw [← h])⟩
    · rename_i r
      exact ⟨_, .txtRaw (ls := (writeTxt p.wrap (.raw r)).yields) (by rw [← h])⟩
    · rename_i a
      exact ⟨_, .json (ps := (p.json (.act a)).yields) (by rw [← h])⟩
    · rename_i r
      exact ⟨_, .json (ps := (p.json (.raw r)).yields) (by rw [← h])⟩
    · rename_i a
      cases hd : htmlDocument a with
      | ok d => exact ⟨_, .html hd⟩
      | error e => rw [hd] at h; cases h
    · cases h
  · rintro ⟨text, h⟩
    cases h with
    | txtAct h => simp only [Printers.output, h]
    | txtRaw h => simp only [Printers.output, h]
    | json h => simp only [Printers.output, h]
    | html h => simp only [Printers.output, htmlFile, h]

theorem writes_text {p : Printers} {f : Format} {o : Output} {text : Str} (h : Writes p f o text) :
    text = (p.output f o).yields.flatten := by
  cases h with
  | txtAct h => simp only [Printers.output, h, endedLines, List.map_map]; rfl
  | txtRaw h => simp only [Printers.output, h, endedLines, List.map_map]; rfl
  | json h => simp only [Printers.output, h]
  | html h => simp [Printers.output, htmlFile, h]

theorem writes_of_stop {p : Printers} {f : Format} {o : Output} (h : (p.output f o).stop = none) :
    Writes p f o (p.output f o).yields.flatten := by
  obtain ⟨text, h⟩ := output_writes.1 h
  rw [← writes_text h]; exact h

theorem outputOf_iff {e : Extracted} {o : Output} : OutputOf e o ↔ e.output? = some o := by
  constructor
  · intro h; cases h <;> rfl
  · intro h
    cases e <;> simp only [Extracted.output?, Option.some.injEq, reduceCtorEq] at h <;> subst h <;> constructor

theorem notOutput_iff (args : CliArgs) (hc : IsStep args.step) (o : Output) : notOutput args o = false ↔ WantedOutput args o := by
  unfold notOutput WantedOutput
  rcases hc with h | h | h | h <;> cases hs : args.singleAct <;> simp [h]
  all_goals exact eq_comm

theorem both_output {es : List Extracted} {objs : List Output} :
    Both OutputOf es objs ↔ objs = es.filterMap Extracted.output? ∧ ∀ e ∈ es, ∃ o, OutputOf e o := by
  constructor
  · intro h
    induction h with
    | nil => simp
    | @cons e o es os h _ ih =>
      obtain ⟨rfl, ih⟩ := ih
      refine ⟨by simp [outputOf_iff.1 h], ?_⟩
      intro e' he'
      rcases List.mem_cons.1 he' with rfl | he'
      · exact ⟨o, h⟩
      · exact ih e' he'
  · rintro ⟨rfl, h⟩
    induction es with
    | nil => exact .nil
    | cons e es ih =>
      obtain ⟨o, ho⟩ := h e (by simp)
      rw [List.filterMap_cons_some (outputOf_iff.1 ho)]
      exact .cons ho (ih fun e he => h e (by simp [he]))

theorem both_output_perm {es es' : List Extracted} {objs : List Output} (h : Both OutputOf es objs) (hp : es'.Perm es) :
    ∃ objs', Both OutputOf es' objs' ∧ objs'.Perm objs := by
  obtain ⟨rfl, hs⟩ := both_output.1 h
  exact ⟨_, both_output.2 ⟨rfl, fun e he => hs e (hp.mem_iff.1 he)⟩, hp.filterMap _⟩

theorem both_output_unique {es : List Extracted} {objs objs' : List Output} (h : Both OutputOf es objs) (h' : Both OutputOf es objs') :
    objs = objs' := by
  rw [(both_output.1 h).1, (both_output.1 h').1]

/-- Everything that is asked for can be written. -/
theorem produces_output {s : Sources} {c : ExtractedClass} {r : LawRawText} {e : Extracted} (h : Produces s c r e) :
    ∃ o, OutputOf e o := by
  cases c with
  | raw => obtain rfl := h; exact ⟨_, .raw _⟩
  | structureOnly => obtain ⟨_, _, _, _, rfl⟩ := h; exact ⟨_, .structureOnly _⟩
  | blockOnly => obtain ⟨_, _, _, _, _, _, rfl⟩ := h; exact ⟨_, .blockOnly _⟩
  | act => obtain ⟨_, _, _, _, _, _, _, _, rfl⟩ := h; exact ⟨_, .act _⟩
  | _ => cases h

/-- Writing one object after another. -/
def written (p : Printers) (args : CliArgs) (w : CliWorld) (objs : List Output) : CliWorld :=
  objs.foldl (fun w o => (writeOutput p args o w).1) w

/-- The loop, whatever ends it: some objects have been written entirely, then the loop is at its end, or the next object is not
one of those that are written, or its output ends with an exception. -/
theorem runLoop_cases (p : Printers) (args : CliArgs) (hc : IsStep args.step) (stop : Option Err) : ∀ es w w' err,
    runLoop p args stop es w = (w', err) → ∃ es₁ es₂ objs, es = es₁ ++ es₂ ∧ Both OutputOf es₁ objs ∧
      (∀ o ∈ objs, WantedOutput args o → (p.output args.format o).stop = none) ∧
      ((es₂ = [] ∧ err = stop ∧ w' = written p args w (objs.filter fun o => WantedOutput args o)) ∨
       (∃ e es₃, es₂ = e :: es₃ ∧ e.output? = none ∧ err = some .attributeError ∧
          w' = written p args w (objs.filter fun o => WantedOutput args o)) ∨
       (∃ e es₃ o x, es₂ = e :: es₃ ∧ OutputOf e o ∧ WantedOutput args o ∧ (p.output args.format o).stop = some x ∧ err = some x ∧
          w' = written p args w ((objs.filter fun o => WantedOutput args o) ++ [o]))) := by
  intro es
  induction es with
  | nil =>
    intro w w' err h
    cases h
    exact ⟨[], [], [], rfl, .nil, by simp, .inl ⟨rfl, rfl, rfl⟩⟩
  | cons e es ih =>
    intro w w' err h
    rw [runLoop] at h
    cases ho : e.output? with
    | none =>
      rw [ho] at h
      cases h
      exact ⟨[], e :: es, [], rfl, .nil, by simp, .inr (.inl ⟨e, es, rfl, ho, rfl, rfl⟩)⟩
    | some o =>
      simp only [ho] at h
      by_cases hn : notOutput args o = true
      · rw [if_pos hn] at h
        have hw : ¬ WantedOutput args o := by
          rw [← notOutput_iff args hc, hn]; simp
        obtain ⟨es₁, es₂, objs, rfl, hb, hs, hr⟩ := ih _ _ _ h
        refine ⟨e :: es₁, es₂, o :: objs, rfl, .cons (outputOf_iff.2 ho) hb, ?_, ?_⟩
        · intro o' ho' hw'
          rcases List.mem_cons.1 ho' with rfl | ho'
          · exact absurd hw' hw
          · exact hs o' ho' hw'
        · rw [List.filter_cons_of_neg (by simpa using hw)]
          exact hr
      · rw [if_neg hn] at h
        have hw : WantedOutput args o := (notOutput_iff args hc o).1 (by simpa using hn)
        have h2 : (writeOutput p args o w).2 = (p.output args.format o).stop := by
          unfold writeOutput; cases args.outputDir <;> rfl
        cases hx : (p.output args.format o).stop with
        | some x =>
          have : writeOutput p args o w = ((writeOutput p args o w).1, some x) := by rw [← hx, ← h2]
          rw [this] at h
          cases h
          exact ⟨[], e :: es, [], rfl, .nil, by simp, .inr (.inr ⟨e, es, o, x, rfl, outputOf_iff.2 ho, hw, hx, rfl, rfl⟩)⟩
        | none =>
          have : writeOutput p args o w = ((writeOutput p args o w).1, none) := by rw [← hx, ← h2]
          rw [this] at h
          obtain ⟨es₁, es₂, objs, rfl, hb, hs, hr⟩ := ih _ _ _ h
          refine ⟨e :: es₁, es₂, o :: objs, rfl, .cons (outputOf_iff.2 ho) hb, ?_, ?_⟩
          · intro o' ho' hw'
            rcases List.mem_cons.1 ho' with rfl | ho'
            · exact hx
            · exact hs o' ho' hw'
          · rw [List.filter_cons_of_pos (by simpa using hw)]
            exact hr

theorem written_append (p : Printers) (args : CliArgs) (w : CliWorld) (a b : List Output) :
    written p args w (a ++ b) = written p args (written p args w a) b := List.foldl_append ..

/-- Each file has the text of an object that is written to it, or is as it was. -/
theorem written_files {p : Printers} {args : CliArgs} {dir : Str} (hd : args.outputDir = some dir) (path : Str) :
    ∀ objs w, (∃ o ∈ objs, filePath dir o args.format = path ∧
        (written p args w objs).files.get? path = some (p.output args.format o).yields.flatten) ∨
      ((∀ o ∈ objs, filePath dir o args.format ≠ path) ∧ (written p args w objs).files.get? path = w.files.get? path) := by
  intro objs
  induction objs with
  | nil => intro w; exact .inr ⟨by simp, rfl⟩
  | cons o objs ih =>
    intro w
    have hw : written p args w (o :: objs) = written p args (writeOutput p args o w).1 objs := rfl
    rw [hw]
    rcases ih (writeOutput p args o w).1 with ⟨o', ho', h1, h2⟩ | ⟨h1, h2⟩
    · exact .inl ⟨o', by simp [ho'], h1, h2⟩
    · rw [h2]
      have hf : (writeOutput p args o w).1.files = w.files.set (filePath dir o args.format) (p.output args.format o).yields.flatten := by
        simp [writeOutput, hd]
      rw [hf, Dict.get?_set]
      by_cases he : path = filePath dir o args.format
      · exact .inl ⟨o, by simp, he.symm, by rw [if_pos he]⟩
      · refine .inr ⟨?_, by rw [if_neg he]⟩
        intro o' ho'
        rcases List.mem_cons.1 ho' with rfl | ho'
        · exact fun h => he h.symm
        · exact h1 o' ho'

theorem written_dir_stdout {p : Printers} {args : CliArgs} {dir : Str} (hd : args.outputDir = some dir) :
    ∀ objs w, (written p args w objs).stdout = w.stdout := by
  intro objs
  induction objs with
  | nil => intro w; rfl
  | cons o objs ih =>
    intro w
    have hw : written p args w (o :: objs) = written p args (writeOutput p args o w).1 objs := rfl
    rw [hw, ih]
    simp [writeOutput, hd]

theorem written_stdout {p : Printers} {args : CliArgs} (hd : args.outputDir = none) :
    ∀ objs w, (written p args w objs).files = w.files ∧
      (written p args w objs).stdout = w.stdout ++ (objs.map fun o => (p.output args.format o).yields.flatten).flatten := by
  intro objs
  induction objs with
  | nil => intro w; simp [written]
  | cons o objs ih =>
    intro w
    have hw : written p args w (o :: objs) = written p args (writeOutput p args o w).1 objs := rfl
    rw [hw, (ih _).1, (ih _).2]
    simp [writeOutput, hd]

theorem pathJoin_relative {dir : Str} {c : Char} {s : Str} (hc : c ≠ '/') :
    pathJoin dir (c :: s) = (if dir.isEmpty ∨ dir.getLast? = some '/' then dir else dir ++ ['/']) ++ c :: s := by
  unfold pathJoin
  rw [if_neg (by simpa using hc)]
  split <;> simp

/-- The paths of two identifiers that do not begin at the root are the same only if they are the same. -/
theorem filePath_inj {dir : Str} {f : Format} {o o' : Output} (h : o.identifier.head? ≠ some '/') (h' : o'.identifier.head? ≠ some '/')
    (he : filePath dir o f = filePath dir o' f) : o.identifier = o'.identifier := by
  unfold filePath at he
  have key : ∀ i : Str, i.head? ≠ some '/' → ∃ c s, c ≠ '/' ∧ i ++ '.' :: f.name = c :: s := by
    intro i hi
    cases i with
    | nil => exact ⟨'.', f.name, by decide, rfl⟩
    | cons c s => exact ⟨c, _, by simpa using hi, rfl⟩
  obtain ⟨c, s, hc, e⟩ := key _ h
  obtain ⟨c', s', hc', e'⟩ := key _ h'
  rw [e, e', pathJoin_relative hc, pathJoin_relative hc'] at he
  have := List.append_cancel_left he
  rw [← e, ← e'] at this
  exact List.append_cancel_right this

theorem minRat_le : ∀ (xs : List Rat) (m : Rat), minRat m xs ≤ m ∧ (∀ x ∈ xs, minRat m xs ≤ x) ∧ (minRat m xs = m ∨ minRat m xs ∈ xs)
  | [], m => ⟨Rat.le_refl, by simp, .inl rfl⟩
  | x :: xs, m => by
    obtain ⟨h1, h2, h3⟩ := minRat_le xs (if x < m then x else m)
    unfold minRat
    by_cases hx : x < m
    · rw [if_pos hx] at h1 h2 h3 ⊢
      refine ⟨by grind, ?_, ?_⟩
      · intro y hy
        rcases List.mem_cons.1 hy with rfl | hy
        · exact h1
        · exact h2 y hy
      · rcases h3 with h3 | h3
        · exact .inr (by simp [h3])
        · exact .inr (by simp [h3])
    · rw [if_neg hx] at h1 h2 h3 ⊢
      refine ⟨h1, ?_, ?_⟩
      · intro y hy
        rcases List.mem_cons.1 hy with rfl | hy
        · grind
        · exact h2 y hy
      · rcases h3 with h3 | h3
        · exact .inl h3
        · exact .inr (by simp [h3])

theorem minIndent_spec (ls : List Line) : (∃ base, minIndent ls = .ok base ∧ (∀ l ∈ ls, l.isEmptyLine = false → base ≤ l.indent) ∧
      ∃ l ∈ ls, l.isEmptyLine = false ∧ l.indent = base) ∨
    (minIndent ls = .error .valueError ∧ ∀ l ∈ ls, l.isEmptyLine = true) := by
  unfold minIndent
  cases hf : ls.filter (! ·.isEmptyLine) with
  | nil =>
    refine .inr ⟨rfl, fun l hl => ?_⟩
    have := List.filter_eq_nil_iff.1 hf l hl
    simpa using this
  | cons x xs =>
    obtain ⟨h1, h2, h3⟩ := minRat_le (xs.map Line.indent) x.indent
    refine .inl ⟨_, rfl, fun l hl he => ?_, ?_⟩
    · have : l ∈ x :: xs := hf ▸ List.mem_filter.2 ⟨hl, by simp [he]⟩
      rcases List.mem_cons.1 this with rfl | hm
      · exact h1
      · exact h2 _ (List.mem_map_of_mem hm)
    · have key : ∀ l ∈ x :: xs, l ∈ ls ∧ l.isEmptyLine = false := fun l hl => by
        have := List.mem_filter.1 (hf ▸ hl)
        exact ⟨this.1, by simpa using this.2⟩
      rcases h3 with h3 | h3
      · exact ⟨x, (key x (by simp)).1, (key x (by simp)).2, h3.symm⟩
      · obtain ⟨l, hl, he⟩ := List.mem_map.1 h3
        exact ⟨l, (key l (by simp [hl])).1, (key l (by simp [hl])).2, he⟩

theorem pyTrunc_nonneg {x : Rat} (h : 0 ≤ x) : ((pyTrunc x).toNat : Rat) ≤ x ∧ x < ((pyTrunc x).toNat : Rat) + 1 := by
  have hn : 0 ≤ x.num := Rat.num_nonneg.2 h
  have he : pyTrunc x = x.floor := by
    rw [Rat.floor_def]
    exact Int.tdiv_eq_ediv_of_nonneg hn
  have h0 : 0 ≤ x.floor := Rat.le_floor_iff.2 (by simpa using h)
  have hc : ((pyTrunc x).toNat : Rat) = (x.floor : Rat) := by
    rw [he]
    have : ((x.floor.toNat : Int) : Rat) = (x.floor : Rat) := by rw [Int.toNat_of_nonneg h0]
    rw [Rat.intCast_natCast] at this
    exact this
  rw [hc]
  refine ⟨Rat.floor_le x, ?_⟩
  have := Rat.lt_floor_add_one x
  simpa using this

theorem pyTrunc_nonpos {x : Rat} (h : x ≤ 0) : (pyTrunc x).toNat = 0 := by
  have hn : x.num ≤ 0 := by
    rcases Int.lt_or_le 0 x.num with hx | hx
    · have h0 : 0 ≤ x := Rat.num_nonneg.1 (by omega)
      have : x = 0 := Rat.le_antisymm h h0
      rw [this] at hx
      simp at hx
    · exact hx
  unfold pyTrunc
  have : 0 ≤ (-x.num).tdiv x.den := Int.tdiv_nonneg (by omega) (Int.natCast_nonneg _)
  rw [Int.neg_tdiv] at this
  omega

end Verif
