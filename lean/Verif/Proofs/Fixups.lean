import Verif.Spec.Fixups
import Verif.Props.Lines
import Verif.Proofs.HeaderLines

/-! # Lemmas about fix-ups -/

namespace Verif

open Verif.Spec

/-! ## Counting -/

theorem checkCount_ok {result out : List Line} {count : Nat} (h : checkCount result count = .ok out) :
    count = 1 ∧ out = result := by
  unfold checkCount at h
  split at h
  · cases h
  · split at h
    · cases h
    · rename_i h1
      cases h
      exact ⟨Decidable.not_not.mp h1, rfl⟩

theorem emptyLineLoop_eq (needle : Str) (ls : List Line) : ∀ result count, emptyLineLoop needle result count ls =
    (result ++ ls.flatMap (fun l => if l.content = needle then [l, emptyLine] else [l]),
      count + ls.countP (·.content = needle)) := by
  induction ls with
  | nil => intro r c; simp [emptyLineLoop]
  | cons l ls ih =>
    intro r c
    unfold emptyLineLoop
    by_cases h : l.content = needle
    · rw [if_pos h, ih]
      simp [h]; omega
    · rw [if_neg h, ih]
      simp [h]

theorem deleteLoop_eq (needle : Str) (ls : List Line) : ∀ result count, deleteLoop needle result count ls =
    (result ++ ls.filter (·.content ≠ needle), count + ls.countP (·.content = needle)) := by
  induction ls with
  | nil => intro r c; simp [deleteLoop]
  | cons l ls ih =>
    intro r c
    unfold deleteLoop
    by_cases h : l.content = needle
    · rw [if_pos h, ih]
      simp [h]; omega
    · rw [if_neg h, ih]
      simp [h]

theorem onlyLine_of_count {needle : Str} {body : List Line} (h : body.countP (·.content = needle) = 1) :
    ∃ before l after, body = before ++ l :: after ∧ OnlyLine needle before l after := by
  induction body with
  | nil => simp at h
  | cons l ls ih =>
    by_cases hl : l.content = needle
    · refine ⟨[], l, ls, rfl, hl, ?_⟩
      rw [List.countP_cons_of_pos (by simpa using hl)] at h
      have h0 : ls.countP (·.content = needle) = 0 := by omega
      intro x hx
      simpa using List.countP_eq_zero.mp h0 x (by simpa using hx)
    · rw [List.countP_cons_of_neg (by simpa using hl)] at h
      obtain ⟨b, m, a, rfl, hm, ho⟩ := ih h
      refine ⟨l :: b, m, a, rfl, hm, ?_⟩
      intro x hx
      rcases List.mem_cons.mp (by simpa using hx : x ∈ l :: (b ++ a)) with rfl | hx
      · exact hl
      · exact ho x hx

theorem count_of_onlyLine {needle : Str} {before after : List Line} {l : Line} (h : OnlyLine needle before l after) :
    (before ++ l :: after).countP (·.content = needle) = 1 := by
  obtain ⟨hl, ho⟩ := h
  have hb : before.countP (·.content = needle) = 0 :=
    List.countP_eq_zero.mpr fun x hx => by simpa using ho x (List.mem_append_left _ hx)
  have ha : after.countP (·.content = needle) = 0 :=
    List.countP_eq_zero.mpr fun x hx => by simpa using ho x (List.mem_append_right _ hx)
  rw [List.countP_append, List.countP_cons_of_pos (by simpa using hl), hb, ha]

theorem flatMap_others {needle : Str} {ls : List Line} (h : ∀ x ∈ ls, x.content ≠ needle) :
    ls.flatMap (fun l => if l.content = needle then [l, emptyLine] else [l]) = ls := by
  induction ls with
  | nil => rfl
  | cons l ls ih =>
    rw [List.flatMap_cons, if_neg (h l (List.mem_cons_self ..)), ih fun x hx => h x (List.mem_cons_of_mem _ hx)]
    rfl

/-! ## Common beginnings and endings -/

theorem commonPrefixLen_spec : ∀ a b : Str, ∃ p a' b', a = p ++ a' ∧ b = p ++ b' ∧ p.length = commonPrefixLen a b := by
  intro a
  induction a with
  | nil => intro b; exact ⟨[], [], b, rfl, rfl, by cases b <;> rfl⟩
  | cons x xs ih =>
    intro b
    cases b with
    | nil => exact ⟨[], _, [], rfl, rfl, rfl⟩
    | cons y ys =>
      by_cases h : x = y
      · obtain ⟨p, a', b', h1, h2, h3⟩ := ih ys
        exact ⟨x :: p, a', b', by rw [h1]; rfl, by rw [h2, h]; rfl, by simp [commonPrefixLen, h, h3]⟩
      · exact ⟨[], _, _, rfl, rfl, by simp [commonPrefixLen, h]⟩

/-- Two texts begin and end in the same way, without overlap. -/
theorem common_spec (needle replacement : Str) : ∃ p n r s, needle = p ++ n ++ s ∧ replacement = p ++ r ++ s ∧
    p.length = commonPrefixLen needle replacement ∧ s.length = commonPostfixLen needle replacement := by
  obtain ⟨p, a, b, h1, h2, h3⟩ := commonPrefixLen_spec needle replacement
  have ha : needle.drop (commonPrefixLen needle replacement) = a := by
    conv => lhs; rw [← h3]; rw [h1]
    simp
  have hb : replacement.drop (commonPrefixLen needle replacement) = b := by
    conv => lhs; rw [← h3]; rw [h2]
    simp
  obtain ⟨s, n, r, k1, k2, k3⟩ := commonPrefixLen_spec a.reverse b.reverse
  refine ⟨p, n.reverse, r.reverse, s.reverse, ?_, ?_, h3, ?_⟩
  · rw [h1, ← List.reverse_reverse a, k1]; simp
  · rw [h2, ← List.reverse_reverse b, k2]; simp
  · unfold commonPostfixLen
    simp only
    rw [ha, hb, List.length_reverse, k3]

/-! ## The line that replaces -/

theorem slice_prefix {l r : Line} {n : Nat} (h : l.slice 0 (some n) = .ok r) (hn : n ≤ l.content.length) :
    r.content = l.content.take n := by
  have h1 := Props.slice_text_partial l r 0 (some n) h (by
    rintro ⟨pre, last, -, h1, -⟩
    simp [pyBound] at h1)
  rw [h1]
  simp only [Option.getD_some]
  unfold pySlice
  have : pyBound l.content.length (n : Int) = n := by unfold pyBound; rw [if_neg (by omega)]; simp; omega
  rw [this]
  simp [pyBound]

theorem slice_suffix {l r : Line} {m : Nat} (h : l.slice (-(m : Int)) = .ok r) (hm0 : m ≠ 0) (hm : m ≤ l.content.length)
    (hi : ¬ InsideLastPart l (l.content.length - m)) : r.content = l.content.drop (l.content.length - m) := by
  have hb : pyBound l.content.length (-(m : Int)) = l.content.length - m := by
    unfold pyBound; rw [if_pos (by omega)]; omega
  have h1 := Props.slice_text_partial l r _ none h (by rw [hb]; exact hi)
  rw [h1]
  unfold pySlice
  rw [hb]
  have : pyBound l.content.length (Option.getD none (l.content.length : Int)) = l.content.length := by
    simp only [Option.getD_none]
    unfold pyBound
    rw [if_neg (by omega)]
    simp
  rw [this]
  simp

theorem pySlice_between (p r s : Str) :
    (if s.length ≠ 0 then pySlice (p ++ r ++ s) p.length (-(s.length : Int))
      else pySlice (p ++ r ++ s) p.length (p ++ r ++ s).length) = r := by
  have hp : ∀ _ : Nat, pyBound (p ++ r ++ s).length (p.length : Int) = p.length := by
    intro k
    unfold pyBound
    rw [if_neg (by omega)]
    simp
  by_cases h : s.length ≠ 0
  · rw [if_pos h]
    unfold pySlice
    have : pyBound (p ++ r ++ s).length (-(s.length : Int)) = (p ++ r).length := by
      unfold pyBound
      rw [if_pos (by omega)]
      simp; omega
    rw [this, hp 0, List.take_left, List.drop_left]
  · rw [if_neg h]
    unfold pySlice
    have h0 : s = [] := List.eq_nil_of_length_eq_zero (by omega)
    subst h0
    have : pyBound (p ++ r ++ []).length (((p ++ r ++ []).length : Nat) : Int) = (p ++ r).length := by
      unfold pyBound
      rw [if_neg (by omega), List.append_nil]
      omega
    rw [this, hp 0, List.append_nil, List.take_length, List.drop_left]

theorem replacedLine_succeeds {needle : Str} (replacement : Str) {l : Line} (h : l.content = needle)
    (hb : ∀ k ≤ l.content.length, Border l k) (hi : ∀ k, ¬ InsideLastPart l k) :
    ∃ r, replacedLine needle replacement l = .ok r := by
  have hslice : ∀ a b : Nat, a ≤ b → b ≤ l.content.length → ∃ r, l.slice a (some b) = .ok r := by
    intro a b hab hbl
    rcases Nat.lt_or_eq_of_le hab with hlt | rfl
    · exact (Props.slice_succeeds_iff l a b hlt hbl (hi a)).1 ⟨hb a (by omega), hb b hbl⟩
    · rw [Line.slice_eq]
      by_cases h1 : l.adjust a = 0 ∧ l.adjust ((some (a : Int)).getD l.content.length) = l.content.length
      · exact ⟨_, by rw [if_pos h1]⟩
      · exact ⟨_, by rw [if_neg h1, if_pos (by simp)]⟩
  have hto : ∀ a : Int, l.slice a = l.slice a (some (l.content.length : Int)) := fun a => rfl
  obtain ⟨p, n, q, s, h1, h2, h3, h4⟩ := common_spec needle replacement
  have hlen : p.length + n.length + s.length = l.content.length := by rw [h, h1]; simp [Nat.add_assoc]
  obtain ⟨a, ha⟩ := hslice 0 p.length (by omega) (by omega)
  obtain ⟨b, hb'⟩ := hslice p.length l.content.length (by omega) (Nat.le_refl _)
  have hc : ∃ c, commonPostfix l s.length = .ok c := by
    unfold commonPostfix
    by_cases hs : s.length ≠ 0
    · rw [if_pos hs]
      obtain ⟨c, hc⟩ := hslice (l.content.length - s.length) l.content.length (by omega) (Nat.le_refl _)
      refine ⟨c, ?_⟩
      rw [← hc, Line.slice_eq, Line.slice_eq]
      have : l.adjust (-(s.length : Int)) = l.adjust ((l.content.length - s.length : Nat) : Int) := by
        unfold Line.adjust
        rw [if_pos (by omega), if_neg (by omega)]; omega
      rw [this]; rfl
    · rw [if_neg hs]; exact ⟨_, rfl⟩
  obtain ⟨c, hc⟩ := hc
  unfold replacedLine
  simp only
  rw [← h3, ← h4]
  rw [show l.slice 0 (some (p.length : Int)) = .ok a from ha, hto, hb', hc]
  exact ⟨_, rfl⟩

theorem replacedLine_text {needle replacement : Str} {l r : Line} (hl : l.content = needle)
    (h : replacedLine needle replacement l = .ok r) :
    ∃ lost, r.content ++ lost = replacement ∧
      (lost ≠ [] → InsideLastPart l (needle.length - lost.length) ∧ ∃ front, needle = front ++ lost) ∧
      lost.length ≤ commonPostfixLen needle replacement := by
  obtain ⟨p, n, q, s, h1, h2, h3, h4⟩ := common_spec needle replacement
  unfold replacedLine at h
  simp only at h
  rw [← h3, ← h4] at h
  obtain ⟨a, ha, h⟩ := resBind_ok h
  obtain ⟨b, hb, h⟩ := resBind_ok h
  obtain ⟨c, hc, h⟩ := resBind_ok h
  unfold commonPostfix at hc
  cases h
  have hmid : (if s.length ≠ 0 then pySlice replacement p.length (-(s.length : Int))
      else pySlice replacement p.length replacement.length) = q := by rw [h2]; exact pySlice_between p q s
  rw [hmid]
  have hlen : p.length + n.length + s.length = l.content.length := by rw [hl, h1]; simp [Nat.add_assoc]
  have hca : a.content = p := by
    rw [slice_prefix ha (by omega), hl, h1, List.append_assoc, List.take_left]
  rw [Props.joined_text]
  have hc' : ([a, ⟨[⟨b.indent, q, false⟩], 0⟩, c] : List Line).flatMap (·.content) = p ++ q ++ c.content := by
    simp only [List.flatMap_cons, List.flatMap_nil, hca, List.append_nil]
    simp [Line.content]
  rw [hc']
  by_cases hs : s.length ≠ 0
  · rw [if_pos hs] at hc
    by_cases hi : InsideLastPart l (l.content.length - s.length)
    · refine ⟨s, ?_, fun _ => ⟨by rw [← hl]; exact hi, p ++ n, h1⟩, by omega⟩
      have : c = emptyLine := by
        have hlt := hi
        obtain ⟨-, -, -, h5, h6⟩ := hlt
        have := Props.slice_inside_last_part l (l.content.length - s.length) l.content.length hi h6
        have hadj : l.slice (-(s.length : Int)) = l.slice ((l.content.length - s.length : Nat) : Int)
            (some (l.content.length : Int)) := by
          rw [Line.slice_eq, Line.slice_eq]
          have : l.adjust (-(s.length : Int)) = l.adjust ((l.content.length - s.length : Nat) : Int) := by
            unfold Line.adjust
            rw [if_pos (by omega), if_neg (by omega)]; omega
          rw [this]; rfl
        rw [hadj, this] at hc
        exact (Except.ok.inj hc).symm
      rw [this, h2]
      simp [emptyLine, Line.content]
    · refine ⟨[], ?_, fun h => absurd rfl h, Nat.zero_le _⟩
      rw [slice_suffix hc hs (by omega) hi, hl, h1, h2]
      have : (p ++ n ++ s).length - s.length = (p ++ n).length := by simp; omega
      rw [this, List.drop_left]
      simp
  · rw [if_neg hs] at hc
    cases hc
    have h0 : s = [] := List.eq_nil_of_length_eq_zero (by omega)
    refine ⟨[], ?_, fun h => absurd rfl h, Nat.zero_le _⟩
    rw [h2, h0]
    simp [Line.content]

/-! ## The loop -/

theorem prevLines_iff (prev : Option (List Str)) (result : List Line) :
    prevLinesAreSame prev result = true ↔ ∀ texts, prev = some texts → EndsWithTexts result texts := by
  cases prev with
  | none => simp [prevLinesAreSame]
  | some ts =>
    simp only [prevLinesAreSame, Bool.and_eq_true, decide_eq_true_eq, List.all_eq_true, List.mem_range, Option.some.injEq]
    have key : (ts.length ≤ result.length ∧ ∀ i < ts.length, (result.reverse[i]?).map Line.content = ts.reverse[i]?) ↔
        EndsWithTexts result ts := by
      constructor
      · rintro ⟨h1, h2⟩
        have : ts.reverse <+: (result.map Line.content).reverse := by
          rw [List.prefix_iff_eq_take]
          apply List.ext_getElem?
          intro i
          rw [List.getElem?_take]
          by_cases hi : i < ts.reverse.length
          · rw [if_pos hi, ← List.map_reverse, List.getElem?_map, h2 i (by simpa using hi)]
          · rw [if_neg hi, List.getElem?_eq_none (by omega)]
        obtain ⟨t, ht⟩ := List.reverse_prefix.mp this
        exact ⟨t, ht.symm⟩
      · rintro ⟨front, hf⟩
        have hlen : ts.length ≤ result.length := by
          have := congrArg List.length hf
          simp at this; omega
        refine ⟨hlen, fun i hi => ?_⟩
        rw [← List.getElem?_map, List.map_reverse, hf, List.reverse_append, List.getElem?_append_left (by simpa using hi)]
    rw [key]
    constructor
    · rintro h _ rfl; exact h
    · intro h; exact h ts rfl

theorem wanted_iff (needle : Str) (prev : Option (List Str)) (before : List Line) (l : Line) :
    (l.content ≠ needle ∨ prevLinesAreSame prev before = false) ↔ ¬ Wanted needle prev before l := by
  unfold Wanted
  rw [← prevLines_iff]
  by_cases h : l.content = needle <;> simp [h]

/-- No line of the list is wanted, if these lines are before it. -/
def NoneWanted (needle : Str) (prev : Option (List Str)) (before ls : List Line) : Prop :=
  ∀ p l q, ls = p ++ l :: q → ¬ Wanted needle prev (before ++ p) l

theorem NoneWanted.cons {needle : Str} {prev : Option (List Str)} {before ls : List Line} {l : Line}
    (hl : ¬ Wanted needle prev before l) (h : NoneWanted needle prev (before ++ [l]) ls) :
    NoneWanted needle prev before (l :: ls) := by
  intro p x q he
  cases p with
  | nil =>
    obtain ⟨rfl, rfl⟩ := List.cons.inj he
    rwa [List.append_nil]
  | cons y p =>
    obtain ⟨rfl, rfl⟩ := List.cons.inj he
    have := h p x q rfl
    rwa [List.append_assoc] at this

theorem replaceLoop_count {needle replacement : Str} {prev : Option (List Str)} {ls : List Line} :
    ∀ {result : List Line} {count : Nat} {out : List Line × Nat},
    replaceLoop needle replacement prev result count ls = .ok out → count ≤ out.2 ∧
      (out.2 = count → out.1 = result ++ ls ∧ NoneWanted needle prev result ls) ∧
      (out.2 = count + 1 → ∃ before l after mid, ls = before ++ l :: after ∧ out.1 = result ++ before ++ mid ++ after ∧
        Wanted needle prev (result ++ before) l ∧ NoneWanted needle prev result before ∧
        NoneWanted needle prev (result ++ before ++ mid) after ∧
        (replacement = [] → mid = []) ∧
        (replacement ≠ [] → ∃ r, mid = [r] ∧ replacedLine needle replacement l = .ok r)) := by
  induction ls with
  | nil =>
    intro result count out h
    cases h
    refine ⟨Nat.le_refl _, fun _ => ⟨by simp, ?_⟩, fun h => by simp at h⟩
    intro p l q he
    simp at he
  | cons l ls ih =>
    intro result count out h
    unfold replaceLoop at h
    by_cases hw : l.content ≠ needle ∨ prevLinesAreSame prev result = false
    · rw [if_pos hw] at h
      have hw := (wanted_iff ..).mp hw
      obtain ⟨h1, h2, h3⟩ := ih h
      refine ⟨h1, fun he => ?_, fun he => ?_⟩
      · obtain ⟨k1, k2⟩ := h2 he
        exact ⟨by simpa using k1, k2.cons hw⟩
      · obtain ⟨b, x, a, mid, rfl, k1, k2, k3, k4, k5⟩ := h3 he
        refine ⟨l :: b, x, a, mid, rfl, by simpa using k1, by simpa using k2, k3.cons hw, by simpa using k4, k5⟩
    · rw [if_neg hw] at h
      have hwanted : Wanted needle prev result l := Classical.byContradiction fun hh => hw ((wanted_iff ..).mpr hh)
      have hnil : NoneWanted needle prev result [] := by intro p x q he; simp at he
      by_cases hr : replacement ≠ []
      · rw [if_pos hr] at h
        obtain ⟨r, hrl, h⟩ := resBind_ok h
        obtain ⟨h1, h2, h3⟩ := ih h
        refine ⟨by omega, fun he => by omega, fun he => ?_⟩
        obtain ⟨k1, k2⟩ := h2 he
        exact ⟨[], l, ls, [r], rfl, by simpa using k1, by simpa using hwanted, hnil, by simpa using k2,
          fun h => absurd h hr, fun _ => ⟨r, rfl, hrl⟩⟩
      · rw [if_neg hr] at h
        obtain ⟨h1, h2, h3⟩ := ih h
        refine ⟨by omega, fun he => by omega, fun he => ?_⟩
        obtain ⟨k1, k2⟩ := h2 he
        exact ⟨[], l, ls, [], rfl, by simpa using k1, by simpa using hwanted, hnil, by simpa using k2,
          fun _ => rfl, fun h => absurd h hr⟩

theorem replaceLoop_none {needle replacement : Str} {ls : List Line} (h : ∀ x ∈ ls, x.content ≠ needle) :
    ∀ {result : List Line} {count : Nat}, replaceLoop needle replacement none result count ls = .ok (result ++ ls, count) := by
  induction ls with
  | nil => intro result count; simp [replaceLoop]
  | cons l ls ih =>
    intro result count
    unfold replaceLoop
    rw [if_pos (.inl (h l (List.mem_cons_self ..))), ih fun x hx => h x (List.mem_cons_of_mem _ hx)]
    simp

theorem replaceLoop_before {needle replacement : Str} {before rest : List Line} (h : ∀ x ∈ before, x.content ≠ needle) :
    ∀ {result : List Line} {count : Nat}, replaceLoop needle replacement none result count (before ++ rest) =
      replaceLoop needle replacement none (result ++ before) count rest := by
  induction before with
  | nil => intro result count; simp
  | cons l ls ih =>
    intro result count
    rw [List.cons_append, replaceLoop, if_pos (.inl (h l (List.mem_cons_self ..))),
      ih fun x hx => h x (List.mem_cons_of_mem _ hx)]
    simp

/-! ## Registrations -/

theorem find_append {f : Fixups} {lawId : Str} {cb : FixupFn} (k : Str) : (f.append lawId cb).find k =
    if k = lawId then (f.find k).map (· ++ [cb]) else f.find k := by
  induction f with
  | nil => simp [Fixups.append, Fixups.find]
  | cons e es ih =>
    simp only [Fixups.append, List.map_cons] at ih ⊢
    by_cases h : e.1 = lawId
    · rw [if_pos h]
      simp only [Fixups.find]
      by_cases hk : e.1 = k
      · rw [if_pos hk, if_pos hk, if_pos (hk.symm.trans h)]; rfl
      · rw [if_neg hk, if_neg hk]; exact ih
    · rw [if_neg h]
      simp only [Fixups.find]
      by_cases hk : e.1 = k
      · rw [if_pos hk, if_neg (by rintro rfl; exact h hk), if_pos hk]
      · rw [if_neg hk, if_neg hk]; exact ih

theorem find_snoc {f : Fixups} {lawId : Str} {cbs : List FixupFn} (k : Str) : Fixups.find (f ++ [(lawId, cbs)]) k =
    match f.find k with
    | some x => some x
    | none => if lawId = k then some cbs else none := by
  induction f with
  | nil => rfl
  | cons e es ih =>
    simp only [List.cons_append, Fixups.find]
    by_cases hk : e.1 = k
    · rw [if_pos hk, if_pos hk]
    · rw [if_neg hk, if_neg hk]; exact ih

theorem addFixup_find (f : Fixups) (lawId : Str) (cb : FixupFn) (k : Str) :
    ((addFixup f lawId cb).find k).getD [] = (f.find k).getD [] ++ if lawId = k then [cb] else [] := by
  unfold addFixup
  by_cases h : (f.find lawId).isSome
  · rw [if_pos h, find_append]
    by_cases hk : lawId = k
    · subst hk
      rw [if_pos rfl, if_pos rfl]
      obtain ⟨v, hv⟩ := Option.isSome_iff_exists.mp h
      rw [hv]; rfl
    · rw [if_neg (fun e => hk e.symm), if_neg hk]; simp
  · rw [if_neg h, find_snoc]
    have hn : f.find lawId = none := by simpa using h
    by_cases hk : lawId = k
    · subst hk
      rw [hn]; simp
    · rw [if_neg hk, if_neg hk]
      cases f.find k <;> simp

theorem doAllFixups_eq (f : Fixups) (lawId : Str) (body : List Line) :
    doAllFixups f lawId body = fixupLoop ((f.find lawId).getD []) body := by
  unfold doAllFixups
  cases f.find lawId <;> rfl

theorem history_find (history : List (Str × FixupFn)) : ∀ (f : Fixups) (k : Str),
    ((history.foldl (fun f e => addFixup f e.1 e.2) f).find k).getD [] = (f.find k).getD [] ++ registered history k := by
  induction history with
  | nil => intro f k; simp [registered]
  | cons e es ih =>
    intro f k
    rw [List.foldl_cons, ih, addFixup_find]
    unfold registered
    by_cases h : e.1 = k <;> simp [h]

theorem fixupLoop_iff (fixes : List FixupFn) : ∀ (body out : List Line),
    fixupLoop fixes body = .ok out ↔ Applied fixes body out := by
  induction fixes with
  | nil =>
    intro body out
    constructor
    · intro h; cases h; exact .none _
    · rintro ⟨⟩; rfl
  | cons fix fixes ih =>
    intro body out
    unfold fixupLoop
    cases h : fix body with
    | ok b =>
      simp only
      rw [ih]
      constructor
      · exact .next h
      · rintro (_ | ⟨h', hs⟩)
        rw [h] at h'
        cases h'
        exact hs
    | error e =>
      simp only
      constructor
      · intro hh; cases hh
      · rintro (_ | ⟨h', hs⟩)
        rw [h] at h'
        cases h'

theorem fixupLoop_error {fixes : List FixupFn} : ∀ {body : List Line} {e : Err}, fixupLoop fixes body = .error e →
    e = .valueError := by
  induction fixes with
  | nil => intro body e h; cases h
  | cons fix fixes ih =>
    intro body e h
    unfold fixupLoop at h
    cases hf : fix body with
    | ok b => rw [hf] at h; exact ih h
    | error e' => rw [hf] at h; cases h; rfl

end Verif
