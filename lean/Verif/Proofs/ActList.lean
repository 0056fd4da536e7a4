import Verif.Spec.ActList
import Verif.Proofs.Grammar

/-! # The list of acts (C75) -/

namespace Verif.ActList

open Verif.Spec

theorem replaceAll_char (a : Char) (s : Str) : replaceAll [a] (py" ") s = s.map fun c => if c = a then ' ' else c := by
  unfold replaceAll
  induction s with
  | nil => rfl
  | cons c s ih =>
    rw [replaceAux]
    by_cases h : c = a
    · subst h
      simp [List.isPrefixOf, ih]
    · have : ([a] : Str).isPrefixOf (c :: s) = false := by simp [List.isPrefixOf]; exact fun e => h e.symm
      rw [this]
      simp [h, ih]

theorem keptText_tidy (d : Str) : ∃ t, TidyText d t ∧ keptText d = if t = [] then none else some t := by
  refine ⟨_, ⟨pyStrip d, pyStrip_stripped d, rfl⟩, ?_⟩
  unfold keptText
  rw [replaceAll_char]

theorem keptTexts_tidy (es : List Event) : ∃ ts, Both TidyText (pageTexts es) ts ∧ keptTexts es = ts.filter (· ≠ []) := by
  induction es with
  | nil => exact ⟨[], .nil, rfl⟩
  | cons e es ih =>
    obtain ⟨ts, h1, h2⟩ := ih
    cases e with
    | startTag t => exact ⟨ts, h1, h2⟩
    | endTag t => exact ⟨ts, h1, h2⟩
    | data s =>
      obtain ⟨t, h3, h4⟩ := keptText_tidy s
      refine ⟨t :: ts, .cons h3 h1, ?_⟩
      rw [keptTexts, h4, h2]
      by_cases h : t = [] <;> simp [h]

theorem hasActWord_iff (s : Str) : hasActWord s = true ↔ ∃ m rest, s = m ++ (py" törvény") ++ rest ∧ '\n' ∉ m := by
  induction s with
  | nil =>
    refine ⟨fun h => (by cases h), ?_⟩
    rintro ⟨m, rest, h, -⟩
    simp at h
  | cons c s ih =>
    rw [hasActWord, Bool.or_eq_true, Bool.and_eq_true, ih]
    constructor
    · rintro (h | ⟨h1, m, rest, rfl, h2⟩)
      · obtain ⟨rest, h⟩ := List.isPrefixOf_iff_prefix.mp h
        exact ⟨[], rest, h.symm, by simp⟩
      · refine ⟨c :: m, rest, rfl, ?_⟩
        have hc : c ≠ '\n' := by simpa using h1
        simp only [List.mem_cons, not_or]
        exact ⟨fun e => hc e.symm, h2⟩
    · rintro ⟨m, rest, h, hm⟩
      cases m with
      | nil => exact .inl (List.isPrefixOf_iff_prefix.mpr ⟨rest, h.symm⟩)
      | cons d m =>
        obtain ⟨rfl, h2⟩ := List.cons.inj h
        refine .inr ⟨?_, m, rest, h2, fun h => hm (List.mem_cons_of_mem _ h)⟩
        simpa using fun e => hm (by simp [e])

theorem isActId_iff (s : Str) : isActId s = true ↔ ActHeading s := by
  constructor
  · intro h
    unfold isActId at h
    split at h
    · rename_i a b s
      simp only [Bool.and_eq_true, bne_iff_ne, ne_eq] at h
      obtain ⟨⟨⟨ha, hb⟩, hp⟩, hw⟩ := h
      obtain ⟨r, rfl⟩ := List.isPrefixOf_iff_prefix.mp hp
      obtain ⟨m, rest, e, hm⟩ := (hasActWord_iff _).mp hw
      refine ⟨a, b, m, rest, ?_, ha, hb, hm⟩
      have e' : r = m ++ (py" törvény") ++ rest := e
      rw [e']
      rfl
    · cases h
  · rintro ⟨a, b, m, rest, rfl, ha, hb, hm⟩
    have : isActId ((py"20") ++ [a, b] ++ (py". évi ") ++ m ++ (py" törvény") ++ rest) =
        (a != '\n' && b != '\n' && true && hasActWord (m ++ (py" törvény") ++ rest)) := rfl
    rw [this, (hasActWord_iff _).mpr ⟨m, rest, rfl, hm⟩]
    simp [ha, hb]

theorem rows_none (year issue : Int) (ts : List Str) : rows year issue none ts = (actsOf ts).map fun p => row year issue p.1 p.2 := by
  suffices h : rows year issue none ts = (actsOf ts).map (fun p => row year issue p.1 p.2) ∧
      ∀ id, ActHeading id → rows year issue (some id) ts = (actsOf (id :: ts)).map fun p => row year issue p.1 p.2 from h.1
  induction ts with
  | nil => exact ⟨rfl, fun _ _ => rfl⟩
  | cons d ts ih =>
    obtain ⟨ih1, ih2⟩ := ih
    by_cases hd : ActHeading d
    · have hb := (isActId_iff d).mpr hd
      refine ⟨?_, fun id hid => ?_⟩
      · rw [rows, if_pos hb, ih2 d hd]
      · rw [rows, if_pos hb, ih2 d hd]
        have : actsOf (id :: d :: ts) = actsOf (d :: ts) := by
          unfold actsOf neighbours
          simp [hd]
        rw [this]
    · have hb : isActId d ≠ true := fun h => hd ((isActId_iff d).mp h)
      have drop : actsOf (d :: ts) = actsOf ts := by
        unfold actsOf neighbours
        cases ts <;> simp [hd]
      refine ⟨?_, fun id hid => ?_⟩
      · rw [rows, if_neg hb, drop]
        exact ih1
      · rw [rows, if_neg hb]
        have : actsOf (id :: d :: ts) = (id, d) :: actsOf (d :: ts) := by
          unfold actsOf neighbours
          simp [hd, hid]
        rw [this, drop, ih1]
        rfl

/-! ## Comma separated values -/

theorem inField_comma : ∀ (s acc rest : Str), ',' ∉ s → csvFields .inField acc (s ++ ',' :: rest) = (acc ++ s) :: csvFields .startField [] rest
  | [], acc, rest, _ => by simp [csvFields]
  | c :: s, acc, rest, h => by
    have hc : c ≠ ',' := fun e => h (by simp [e])
    rw [List.cons_append, csvFields, if_neg hc, inField_comma s _ rest fun hm => h (List.mem_cons_of_mem _ hm)]
    simp

theorem inField_end : ∀ (s acc : Str), ',' ∉ s → csvFields .inField acc s = [acc ++ s]
  | [], acc, _ => by simp [csvFields]
  | c :: s, acc, h => by
    have hc : c ≠ ',' := fun e => h (by simp [e])
    rw [csvFields, if_neg hc, inField_end s _ fun hm => h (List.mem_cons_of_mem _ hm)]
    simp

theorem plain_comma {s : Str} (rest : Str) (h : ',' ∉ s) (hq : s.head? ≠ some '"') :
    csvFields .startField [] (s ++ ',' :: rest) = s :: csvFields .startField [] rest := by
  cases s with
  | nil => rfl
  | cons c s =>
    have hc : c ≠ ',' := fun e => h (by simp [e])
    have hd : c ≠ '"' := fun e => hq (by simp [e])
    rw [List.cons_append, csvFields, if_neg hd, if_neg hc, inField_comma s _ rest fun hm => h (List.mem_cons_of_mem _ hm)]
    rfl

theorem plain_end {s : Str} (h : ',' ∉ s) (hq : s.head? ≠ some '"') : csvFields .startField [] s = [s] := by
  cases s with
  | nil => rfl
  | cons c s =>
    have hc : c ≠ ',' := fun e => h (by simp [e])
    have hd : c ≠ '"' := fun e => hq (by simp [e])
    rw [csvFields, if_neg hd, if_neg hc, inField_end s _ fun hm => h (List.mem_cons_of_mem _ hm)]
    rfl

theorem inQuoted_end : ∀ (s acc : Str), '"' ∉ s → csvFields .inQuoted acc (s ++ py"\"") = [acc ++ s]
  | [], acc, _ => by simp [csvFields]
  | c :: s, acc, h => by
    have hc : c ≠ '"' := fun e => h (by simp [e])
    rw [List.cons_append, csvFields, if_neg hc, inQuoted_end s _ fun hm => h (List.mem_cons_of_mem _ hm)]
    simp

theorem natStrAux_chars : ∀ (f n : Nat), ∀ c ∈ natStrAux f n, c ≠ ',' ∧ c ≠ '"'
  | 0, _ => by simp [natStrAux]
  | f + 1, n => by
    have digit : ∀ d, d < 10 → digitChar d ≠ ',' ∧ digitChar d ≠ '"' := by decide
    intro c hc
    rw [natStrAux] at hc
    split at hc
    · rename_i h
      obtain rfl := List.mem_singleton.mp hc
      exact digit n h
    · rcases List.mem_append.mp hc with hc | hc
      · exact natStrAux_chars f _ c hc
      · obtain rfl := List.mem_singleton.mp hc
        exact digit _ (Nat.mod_lt _ (by decide))

theorem intStr_chars (i : Int) : ∀ c ∈ intStr i, c ≠ ',' ∧ c ≠ '"' := by
  intro c hc
  unfold intStr at hc
  split at hc
  · rcases List.mem_cons.mp hc with rfl | hc
    · decide
    · exact natStrAux_chars _ _ c hc
  · exact natStrAux_chars _ _ c hc

theorem not_head {s : Str} {a : Char} (h : ∀ c ∈ s, c ≠ a) : s.head? ≠ some a := by
  cases s with
  | nil => simp
  | cons c s =>
    intro e
    exact h c (by simp) (by simpa using e)

theorem isInfix_comma (s : Str) : isInfix (py",") s = true ↔ ',' ∈ s := by
  induction s with
  | nil => simp [isInfix]
  | cons c s ih =>
    rw [isInfix, Bool.or_eq_true, ih, List.mem_cons]
    simp [List.isPrefixOf]

theorem row_reads {year issue : Int} {id data : Str} (hi : ',' ∉ id) (hq : id.head? ≠ some '"') (hd : '"' ∉ data) :
    ∃ line, row year issue id data = line ++ (py"\n") ∧ csvLine line = [intStr year, intStr issue, id, data] := by
  refine ⟨_, rfl, ?_⟩
  have hd' : data.head? ≠ some '"' := not_head fun c hc e => hd (e ▸ hc)
  unfold csvLine
  simp only [List.append_assoc, List.cons_append, List.nil_append]
  have n1 : ∀ i : Int, ',' ∉ intStr i ∧ (intStr i).head? ≠ some '"' := fun i =>
    ⟨fun h => (intStr_chars i _ h).1 rfl, not_head fun c hc => (intStr_chars i c hc).2⟩
  rw [plain_comma _ (n1 year).1 (n1 year).2, plain_comma _ (n1 issue).1 (n1 issue).2, plain_comma _ hi hq]
  by_cases hc : ',' ∈ data
  · rw [if_pos ((isInfix_comma data).mpr hc), csvFields, if_pos rfl, inQuoted_end _ _ hd]
    rfl
  · rw [if_neg (fun h => hc ((isInfix_comma data).mp h)), plain_end hc hd']

theorem overRange_yields (start : Int) (f : Int → Gen Str) : ∀ n, (∀ k, k < n → (f (start + (k : Nat))).stop = none) →
    overRange start f n = { yields := (List.range n).flatMap fun k => (f (start + (k : Nat))).yields }
  | 0, _ => rfl
  | n + 1, h => by
    rw [overRange, overRange_yields start f n fun k hk => h k (Nat.lt_succ_of_lt hk), Gen.andThen]
    simp only [List.range_succ, List.flatMap_append, List.flatMap_cons, List.flatMap_nil, List.append_nil]
    rw [h n (Nat.lt_succ_self n)]

end Verif.ActList
