import Verif.Proofs.ActTexts

/-! # Ordinary sentences are passed through -/

namespace Verif.ActGrammar

open Spec Peg

/-! ## What separates references -/

/-- From one place to another one there is a text, with spaces before it. -/
def Eaten (t : Str) (i j : At) : Prop :=
  ∃ sp : Str, (∀ c ∈ sp, isSpace c = true) ∧ i.rest = sp ++ (t ++ j.rest) ∧ j.pos = i.pos + sp.length + t.length

theorem skip_spaces (i : At) : ∃ sp : Str, (∀ c ∈ sp, isSpace c = true) ∧ i.rest = sp ++ i.skip.rest ∧ i.skip.pos = i.pos + sp.length := by
  refine ⟨i.rest.takeWhile isSpace, fun c hc => List.all_eq_true.mp List.all_takeWhile c hc, ?_, rfl⟩
  have h1 : i.skip.rest = i.rest.dropWhile isSpace := skip_rest i.pos i.rest
  rw [h1, List.takeWhile_append_dropWhile]

theorem token_eaten {t : Str} {i j : At} {a : Str} (h : token t i = some (a, j)) :
    a = t ∧ Eaten t i j ∧ (isName t = true → ∀ d ∈ j.rest.head?, isNameChar d = false) := by
  obtain ⟨sp, hsp, h1, h2⟩ := skip_spaces i
  unfold token at h
  simp only at h
  split at h
  · rename_i hc
    rw [Bool.and_eq_true, List.isPrefixOf_iff_prefix] at hc
    obtain ⟨⟨u, hu⟩, hn⟩ := hc
    have h3 : i.skip.rest.drop t.length = u := by rw [← hu, List.drop_left]
    obtain ⟨rfl, rfl⟩ := Prod.mk.inj (Option.some.inj h)
    refine ⟨rfl, ⟨sp, hsp, ?_, ?_⟩, ?_⟩
    · show i.rest = sp ++ (t ++ i.skip.rest.drop t.length)
      rw [h3, hu, ← h1]
    · show i.skip.pos + t.length = _
      rw [h2]
    · intro ht d hd
      have hd' : d ∈ (i.skip.rest.drop t.length).head? := hd
      cases hx : isNameChar d with
      | false => rfl
      | true =>
        rw [ht, Option.mem_def.mp hd'] at hn
        simp [hx] at hn
  · cases h

theorem tokens_eaten {ts : List Str} {i j : At} {a : Str} (h : tokens ts i = some (a, j)) :
    a ∈ ts ∧ Eaten a i j ∧ (isName a = true → ∀ d ∈ j.rest.head?, isNameChar d = false) := by
  induction ts with
  | nil => cases h
  | cons t ts ih =>
    unfold tokens at h
    cases ht : token t i with
    | some x =>
      rw [or_left ht] at h
      cases h
      obtain ⟨rfl, h1⟩ := token_eaten ht
      exact ⟨List.mem_cons_self .., h1⟩
    | none =>
      rw [or_right ht] at h
      obtain ⟨h1, h2⟩ := ih h
      exact ⟨List.mem_cons_of_mem _ h1, h2⟩

theorem az_eaten {i j : At} {a : Str} (h : az i = some (a, j)) : a ∈ [py"a ", py"az "] ∧ Eaten a i j := by
  obtain ⟨sp, hsp, h1, h2⟩ := skip_spaces i
  have h' : pattern (.seq (.char 'a') (.seq (.opt (.char 'z')) (.char ' '))) i.skip = some (a, j) := h
  rcases pattern_cases (.seq (.char 'a') (.seq (.opt (.char 'z')) (.char ' '))) i.skip.pos i.skip.rest with h3 | ⟨k, hk, hm, h3⟩
  · rw [h3] at h'; cases h'
  · rw [h3] at h'
    obtain ⟨rfl, rfl⟩ := Prod.mk.inj (Option.some.inj h')
    refine ⟨?_, sp, hsp, ?_, ?_⟩
    · generalize i.skip.rest.take k = w at hm
      cases hm with
      | seq ha hb =>
        cases ha with
        | set ha =>
          rw [beq_iff_eq.mp ha]
          cases hb with
          | seq hz hs =>
            cases hs with
            | set hs =>
              rw [beq_iff_eq.mp hs]
              cases hz with
              | some hz =>
                cases hz with
                | set hz => rw [beq_iff_eq.mp hz]; simp
              | none => simp
    · show i.rest = sp ++ (i.skip.rest.take k ++ i.skip.rest.drop k)
      rw [List.take_append_drop, ← h1]
    · show i.skip.pos + k = i.pos + sp.length + (i.skip.rest.take k).length
      rw [h2, List.length_take]
      omega

/-! ## Sentences without their first words -/

theorem lower_not_name {c : Char} (h : hunLower c) (hn : isUpperAz c = true ∨ c ∈ py"ÉÁŐÚÖÜÓÍŰ") : False := by
  have h1 := upper_first hn
  rcases h with h | h
  · rw [(begins_not_upper (k := .alphabeticPoint) h).1] at h1
    cases h1
  · have : ∀ x ∈ py"éáőúöüóíű", isUpperHun x = false := by decide +kernel
    rw [this c h] at h1
    cases h1

theorem reference_start {n : Nat} {ps : List ParsedPart} {w : Str} (h : ReferenceText n ps w) (rest : Str) : ItemStart (w ++ rest) := by
  have part : ∀ {n : Nat} {p : ParsedPart} {w : Str}, PartText n p w → ∀ rest, ItemStart (w ++ rest) := by
    rintro n p w ⟨items, u, e, hi, _, rfl, _⟩ rest
    cases hi with
    | one h => rw [List.append_assoc]; exact itemStart h _
    | cons h _ _ => simp only [List.append_assoc]; exact itemStart h _
  cases h with
  | one h => exact part h rest
  | cons h _ _ => simp only [List.append_assoc]; exact part h _

theorem act_start {n : Nat} {a : ParsedActRef} {w rest : Str} (h : ActText n a w rest) :
    ∃ c t, w = c :: t ∧ (isAsciiDigit c = true ∨ isUpperAz c = true ∨ c ∈ py"ÉÁŐÚÖÜÓÍŰ") := by
  cases h with
  | short h _ => obtain ⟨c, e, rfl, hc, _⟩ := h; exact ⟨c, _, rfl, .inr hc⟩
  | long h => obtain ⟨c, e, z, rfl, hc, _⟩ := h; exact ⟨c, _, rfl, .inr hc⟩
  | number h _ _ => obtain ⟨c, t, rfl, hc⟩ := number_head h; exact ⟨c, _, rfl, .inl hc⟩
  | defined h _ _ _ => obtain ⟨c, t, rfl, hc⟩ := number_head h; exact ⟨c, _, rfl, .inl hc⟩
  | described h _ _ => obtain ⟨c, t, rfl, hc⟩ := number_head h; exact ⟨c, _, rfl, .inl hc⟩

theorem itemStart_not_space {c : Char} {s : Str} (h : ItemStart (c :: s)) : isSpace c = false := by
  obtain ⟨x, t, he, hx⟩ := h.head
  cases he
  exact hx

theorem act_not_space {c : Char} (h : isAsciiDigit c = true ∨ isUpperAz c = true ∨ c ∈ py"ÉÁŐÚÖÜÓÍŰ") : isSpace c = false :=
  h.elim digit_not_space name_not_space

theorem plain_not_space {w rest : Str} (h : PlainText w rest) : ∃ c t, w = c :: t ∧ isSpace c = false := by
  cases h with
  | @mark c _ _ _ hs _ => exact ⟨c, [], rfl, hs⟩
  | bracket _ => exact ⟨_, _, rfl, by decide⟩
  | ending _ _ => exact ⟨_, _, rfl, by decide⟩
  | quoted _ => exact ⟨_, _, rfl, by decide +kernel⟩
  | word hw hl hf _ _ _ =>
    obtain ⟨c, t, rfl⟩ := List.exists_cons_of_ne_nil hw
    refine ⟨c, t, rfl, ?_⟩
    rcases hl c (List.mem_cons_self ..) with h | h
    · exact letter_not_space h
    · exact absurd h (hf c (by simp))
  | number hw _ _ =>
    obtain ⟨c, t, rfl⟩ := List.exists_cons_of_ne_nil hw.1
    exact ⟨c, t, rfl, digit_not_space (hw.2 c (List.mem_cons_self ..))⟩
  | dotted hw _ _ _ =>
    obtain ⟨c, t, rfl⟩ := List.exists_cons_of_ne_nil hw.1
    exact ⟨c, t, rfl, digit_not_space (hw.2 c (List.mem_cons_self ..))⟩

theorem ordinary_space {n : Nat} {c : Char} {s : Str} {ms : List Mention} (h : Ordinary n (c :: s) ms) (hc : isSpace c = true) :
    Ordinary (n + 1) s ms := by
  generalize hx : c :: s = x at h
  have no : ∀ {w v : Str}, c :: s = w ++ v → (∃ d t, w = d :: t ∧ isSpace d = false) → False := by
    rintro w v he ⟨d, t, rfl, hd⟩
    cases he
    rw [hc] at hd
    cases hd
  cases h with
  | done => cases hx
  | space _ h => cases hx; exact h
  | plain hw _ => exact (no hx (plain_not_space hw)).elim
  | reference hw _ _ _ _ =>
    have := reference_start hw []
    rw [List.append_nil] at this
    exact (no hx this.head).elim
  | act hw _ _ =>
    obtain ⟨d, t, he, hd⟩ := act_start hw
    exact (no hx ⟨d, t, he, act_not_space hd⟩).elim
  | actWith hw _ _ _ _ _ =>
    obtain ⟨d, t, he, hd⟩ := act_start hw
    rw [List.append_assoc] at hx
    exact (no hx ⟨d, t, he, act_not_space hd⟩).elim

theorem ordinary_spaces {n : Nat} {sp s : Str} {ms : List Mention} (h : Ordinary n (sp ++ s) ms) (hs : ∀ c ∈ sp, isSpace c = true) :
    Ordinary (n + sp.length) s ms := by
  induction sp generalizing n with
  | nil => exact h
  | cons c sp ih =>
    have := ih (ordinary_space h (hs c (List.mem_cons_self ..))) fun x hx => hs x (List.mem_cons_of_mem _ hx)
    rw [List.length_cons, Nat.add_comm sp.length, ← Nat.add_assoc]
    exact this

theorem ordinary_comma {n : Nat} {c : Char} {s : Str} {ms : List Mention} (h : Ordinary n (c :: s) ms) (hc : c ∈ py",;") :
    Ordinary (n + 1) s ms := by
  have cl : ∀ c ∈ py",;", isSpace c = false ∧ ¬ hunLetter c ∧ isAsciiDigit c = false ∧ c ∉ py"-(„" ∧ isLowerAz c = false := by decide +kernel
  obtain ⟨c1, c2, c3, c4, c5⟩ := cl c hc
  generalize hx : c :: s = x at h
  have act : ∀ {m a w v rest}, ActText m a w rest → c :: s = w ++ v → False := by
    intro m a w v rest hw hx
    obtain ⟨d, t, rfl, hd⟩ := act_start hw
    cases hx
    rcases hd with hd | hd
    · rw [c3] at hd; cases hd
    · exact c2 (.inr hd)
  cases h with
  | done => cases hx
  | space hc' _ => cases hx; rw [c1] at hc'; cases hc'
  | plain hw h =>
    cases hw with
    | mark _ _ _ _ => cases hx; exact h
    | bracket _ => cases hx; exact absurd (by decide) c4
    | ending _ _ => cases hx; exact absurd (by decide) c4
    | quoted _ => cases hx; exact absurd (by decide) c4
    | word hw hl hf _ _ _ =>
      obtain ⟨d, t, rfl⟩ := List.exists_cons_of_ne_nil hw
      cases hx
      rcases hl c (List.mem_cons_self ..) with h | h
      · exact absurd h c2
      · exact absurd h (hf c (by simp))
    | number hw _ _ =>
      obtain ⟨d, t, rfl⟩ := List.exists_cons_of_ne_nil hw.1
      cases hx
      have := hw.2 c (List.mem_cons_self ..)
      rw [c3] at this
      cases this
    | dotted hw _ _ _ =>
      obtain ⟨d, t, rfl⟩ := List.exists_cons_of_ne_nil hw.1
      cases hx
      have := hw.2 c (List.mem_cons_self ..)
      rw [c3] at this
      cases this
  | reference hw _ _ _ _ =>
    have h1 := reference_start hw []
    rw [List.append_nil] at h1
    obtain ⟨d, t, rfl, hd⟩ := h1
    cases hx
    rcases hd with hd | rfl | ⟨hd, _⟩
    · rw [c3] at hd; cases hd
    · exact absurd (by decide) c4
    · rw [c5] at hd; cases hd
  | act hw _ _ => exact (act hw hx).elim
  | actWith hw _ _ _ _ _ => rw [List.append_assoc] at hx; exact (act hw hx).elim

/-- A word that is whole, though perhaps with an ending after a hyphen, is no part of anything. -/
theorem ordinary_word {n : Nat} {t s : Str} {ms : List Mention} (h : Ordinary n (t ++ s) ms) (ht : t ≠ []) (hl : ∀ c ∈ t, hunLower c)
    (hs : ∀ c ∈ s.head?, ¬ hunLetter c) (hi : ¬ ItemStart (t ++ s)) : Ordinary (n + t.length) s ms := by
  obtain ⟨c, t, rfl⟩ := List.exists_cons_of_ne_nil ht
  have hc := hl c (List.mem_cons_self ..)
  have c1 : hunLetter c := .inl hc
  generalize hx : c :: t ++ s = x at h hi
  have act : ∀ {m a w v rest}, ActText m a w rest → c :: t ++ s = w ++ v → False := by
    intro m a w v rest hw hx
    obtain ⟨d, u, rfl, hd⟩ := act_start hw
    obtain rfl := (List.cons.inj hx).1
    rcases hd with hd | hd
    · exact absurd c1 (fun h => by have := letter_not_digit h; rw [hd] at this; cases this)
    · exact lower_not_name hc hd
  cases h with
  | done => cases hx
  | space hc' _ => cases hx; rw [letter_not_space c1] at hc'; cases hc'
  | @plain _ w v _ hw h =>
    cases hw with
    | mark hc' _ _ _ => cases hx; exact absurd c1 hc'
    | bracket _ => rw [(List.cons.inj hx).1] at c1; exact absurd c1 (by decide +kernel)
    | ending _ _ => rw [(List.cons.inj hx).1] at c1; exact absurd c1 (by decide +kernel)
    | quoted _ => rw [(List.cons.inj hx).1] at c1; exact absurd c1 (by decide +kernel)
    | word hw hl' hf hr _ _ =>
      rcases List.append_eq_append_iff.mp hx with ⟨u, rfl, rfl⟩ | ⟨u, hu, rfl⟩
      · cases u with
        | nil => simpa using h
        | cons d u =>
          have hd : d = '-' := by
            rcases hl' d (by simp) with h | h
            · exact absurd h (hs d rfl)
            · exact h
          subst hd
          rw [List.length_append, ← Nat.add_assoc] at h
          exact .plain (.ending (fun x hx => hl' x (by simp [hx])) hr) h
      · cases u with
        | nil =>
          rw [List.append_nil] at hu
          rw [hu]
          exact h
        | cons d u =>
          have : hunLetter d := .inl (hl d (by rw [hu]; simp))
          exact absurd this (hr d rfl).1
    | number hw _ _ =>
      obtain ⟨d, u, rfl⟩ := List.exists_cons_of_ne_nil hw.1
      obtain rfl := (List.cons.inj hx).1
      have := hw.2 c (List.mem_cons_self ..)
      rw [letter_not_digit c1] at this
      cases this
    | dotted hw _ _ _ =>
      obtain ⟨d, u, rfl⟩ := List.exists_cons_of_ne_nil hw.1
      obtain rfl := (List.cons.inj hx).1
      have := hw.2 c (List.mem_cons_self ..)
      rw [letter_not_digit c1] at this
      cases this
  | reference hw _ _ _ _ => exact absurd (reference_start hw _) hi
  | act hw _ _ => exact (act hw hx).elim
  | actWith hw _ _ _ _ _ => rw [List.append_assoc] at hx; exact (act hw hx).elim

/-! ## Going past a separator -/

/-- From one place to another one there is this text, spaces aside, and the rest is as ordinary as before. -/
def Passes (ms : List Mention) (i j : At) (t : Str) : Prop :=
  (∃ g, i.rest = g ++ j.rest ∧ squeeze g = t) ∧ (Ordinary i.pos i.rest ms → Ordinary j.pos j.rest ms)

theorem Passes.trans {ms : List Mention} {i j k : At} {t u : Str} (h1 : Passes ms i j t) (h2 : Passes ms j k u) : Passes ms i k (t ++ u) := by
  obtain ⟨⟨g, hg, ht⟩, o1⟩ := h1
  obtain ⟨⟨g', hg', hu⟩, o2⟩ := h2
  exact ⟨⟨g ++ g', by rw [hg, hg', List.append_assoc], by rw [squeeze_append, ht, hu]⟩, fun h => o2 (o1 h)⟩

theorem squeeze_spaces {sp : Str} (h : ∀ c ∈ sp, isSpace c = true) : squeeze sp = [] := by
  unfold squeeze
  rw [List.filter_eq_nil_iff]
  intro c hc
  simp [h c hc]

theorem passes_skip (ms : List Mention) (i : At) : Passes ms i i.skip [] := by
  obtain ⟨sp, hsp, h1, h2⟩ := skip_spaces i
  refine ⟨⟨sp, h1, squeeze_spaces hsp⟩, fun h => ?_⟩
  rw [h1] at h
  rw [h2]
  exact ordinary_spaces h hsp

theorem passes_eaten {ms : List Mention} {i j : At} {t : Str} (h : Eaten t i j)
    (ho : ∀ m, Ordinary m (t ++ j.rest) ms → Ordinary (m + t.length) j.rest ms) : Passes ms i j (squeeze t) := by
  obtain ⟨sp, hsp, h1, h2⟩ := h
  refine ⟨⟨sp ++ t, by rw [h1, List.append_assoc], by rw [squeeze_append, squeeze_spaces hsp, List.nil_append]⟩, fun h => ?_⟩
  rw [h1] at h
  rw [h2]
  exact ho _ (ordinary_spaces h hsp)

theorem passes_comma {ms : List Mention} {i j : At} {a : Str} (h : tokens [py",", py";"] i = some (a, j)) :
    a ∈ [py",", py";"] ∧ Passes ms i j a := by
  obtain ⟨ha, he, _⟩ := tokens_eaten h
  refine ⟨ha, ?_⟩
  simp only [List.mem_cons, List.not_mem_nil, or_false] at ha
  rcases ha with rfl | rfl
  · exact passes_eaten he fun m hm => ordinary_comma hm (by decide)
  · exact passes_eaten he fun m hm => ordinary_comma hm (by decide)

theorem passes_joining {ms : List Mention} {i j : At} {a : Str} (h : tokens joiningWords i = some (a, j)) :
    a ∈ joiningWords ∧ Passes ms i j a := by
  obtain ⟨ha, he, hn⟩ := tokens_eaten h
  refine ⟨ha, ?_⟩
  have hlow : ∀ t ∈ joiningWords, isName t = true ∧ t ≠ [] ∧ (∀ c ∈ t, hunLower c) ∧ squeeze t = t := by unfold hunLower; decide +kernel
  obtain ⟨h1, h2, h3, h4⟩ := hlow a ha
  have hs := hn h1
  have := passes_eaten (ms := ms) he fun m hm => ordinary_word hm h2 h3
    (fun c hc hl => by have := letter_name hl; rw [hs c hc] at this; cases this) (fun hi => by
      have h5 := hi.no_joining m
      obtain ⟨c, t, hct⟩ := List.exists_cons_of_ne_nil h2
      have h6 : token a ⟨m, a ++ j.rest⟩ = some (a, ⟨m + a.length, j.rest⟩) :=
        token_reads m (c := c) (by rw [hct]; rfl) (letter_not_space (.inl (h3 c (by rw [hct]; exact List.mem_cons_self ..)))) (.inr hs)
      have h7 : ∀ ts : List Str, a ∈ ts → tokens ts ⟨m, a ++ j.rest⟩ ≠ none := by
        intro ts
        induction ts with
        | nil => intro h; cases h
        | cons t ts ih =>
          intro h
          unfold tokens
          cases ht : token t ⟨m, a ++ j.rest⟩ with
          | some x => rw [or_left ht]; simp
          | none =>
            rw [or_right ht]
            rcases List.mem_cons.mp h with rfl | h
            · rw [h6] at ht; cases ht
            · exact ih h
      exact h7 _ ha h5)
  rw [h4] at this
  exact this

theorem passes_az {ms : List Mention} {i j : At} {a : Str} (h : az i = some (a, j)) : ∃ t, t ∈ [py"a", py"az"] ∧ Passes ms i j t := by
  obtain ⟨ha, he⟩ := az_eaten h
  have key : ∀ t, t ∈ [py"a", py"az"] → a = t ++ py" " → Passes ms i j t := by
    rintro t ht rfl
    have hlow : ∀ t ∈ [py"a", py"az"], t ≠ [] ∧ (∀ c ∈ t, hunLower c) ∧ squeeze (t ++ py" ") = t := by unfold hunLower; decide +kernel
    obtain ⟨h1, h2, h3⟩ := hlow t ht
    have := passes_eaten (ms := ms) he fun m hm => by
      rw [List.append_assoc] at hm
      have h4 := ordinary_word hm h1 h2 (by rintro _ ⟨⟩; decide +kernel) (fun hi => by
        have h5 := hi.no_az m
        have h6 := matches_ends (r := .seq (.char 'a') (.seq (.opt (.char 'z')) (.char ' '))) (w := t ++ py" ") (by
          simp only [List.mem_cons, List.not_mem_nil, or_false] at ht
          rcases ht with rfl | rfl
          · exact .seq (u := py"a") (matches_one 'a') (.seq (u := []) .none (matches_one ' '))
          · exact .seq (u := py"a") (matches_one 'a') (.seq (u := py"z") (.some (matches_one 'z')) (matches_one ' '))) j.rest
        rw [List.append_assoc] at h6
        unfold pattern at h5
        cases he : Regex.ends (.seq (.char 'a') (.seq (.opt (.char 'z')) (.char ' '))) (t ++ ((py" ") ++ j.rest)) with
        | nil => rw [he] at h6; cases h6
        | cons k ks => simp only [he, List.head?_cons] at h5; cases h5)
      have h5 := ordinary_space h4 (by decide)
      rw [List.length_append, ← Nat.add_assoc]
      exact h5
    rw [h3] at this
    exact this
  simp only [List.mem_cons, List.not_mem_nil, or_false] at ha
  rcases ha with rfl | rfl
  · exact ⟨_, by simp, key (py"a") (by simp) rfl⟩
  · exact ⟨_, by simp, key (py"az") (by simp) rfl⟩

theorem passes_listSeparator {ms : List Mention} {i j : At} (h : listSeparator i = some ((), j)) :
    ∃ c o, c ∈ [py"", py",", py";"] ∧ o ∈ [py"", py"és", py"valamint", py"illetve", py"vagy"] ∧ (c = [] → o ≠ []) ∧ Passes ms i j (c ++ o) := by
  have h0 := passes_skip ms i
  unfold listSeparator rule at h
  have hjn : ∀ t ∈ joiningWords, t ≠ [] := by decide
  have hcn : ∀ t ∈ [py",", py";"], t ≠ [] := by decide
  cases hc : tokens [py",", py";"] i.skip with
  | none =>
    cases hw : tokens joiningWords i.skip with
    | none =>
      have h1 : (do let _ ← opt (tokens [py",", py";"]); let _ ← tokens joiningWords; pure () : Peg Unit) i.skip = none := by
        rw [bind_some (opt_none hc), bind_none hw]
      rw [or_right h1, bind_none hc] at h
      cases h
    | some x =>
      obtain ⟨o, k⟩ := x
      have h1 : (do let _ ← opt (tokens [py",", py";"]); let _ ← tokens joiningWords; pure () : Peg Unit) i.skip = some ((), k) := by
        rw [bind_some (opt_none hc), bind_some hw]; rfl
      rw [or_left h1] at h
      cases h
      obtain ⟨ho, hg⟩ := passes_joining (ms := ms) hw
      exact ⟨[], o, by simp, List.mem_cons_of_mem _ ho, fun _ => hjn o ho, h0.trans hg⟩
  | some x =>
    obtain ⟨c, k⟩ := x
    obtain ⟨hc', hg⟩ := passes_comma (ms := ms) hc
    cases hw : tokens joiningWords k with
    | none =>
      have h1 : (do let _ ← opt (tokens [py",", py";"]); let _ ← tokens joiningWords; pure () : Peg Unit) i.skip = none := by
        rw [bind_some (opt_some hc), bind_none hw]
      rw [or_right h1, bind_some hc] at h
      cases h
      refine ⟨c, [], List.mem_cons_of_mem _ hc', by simp, fun h => absurd h (hcn c hc'), ?_⟩
      rw [List.append_nil]
      exact h0.trans hg
    | some x =>
      obtain ⟨o, l⟩ := x
      have h1 : (do let _ ← opt (tokens [py",", py";"]); let _ ← tokens joiningWords; pure () : Peg Unit) i.skip = some ((), l) := by
        rw [bind_some (opt_some hc), bind_some hw]; rfl
      rw [or_left h1] at h
      cases h
      obtain ⟨ho, hg'⟩ := passes_joining (ms := ms) hw
      exact ⟨c, o, List.mem_cons_of_mem _ hc', List.mem_cons_of_mem _ ho, fun h => absurd h (hcn c hc'), (h0.trans hg).trans hg'⟩

/-- What may separate two references is passed over, and what comes next is as ordinary as before. -/
theorem separated_passes {n : Nat} {s : Str} {ms : List Mention} (h : Ordinary n s ms) :
    ∃ j, separated ⟨n, s⟩ = some ((), j) ∧ Ordinary j.pos j.rest ms ∧ (j = ⟨n, s⟩ ∨ ∃ g, s = g ++ j.rest ∧ Separates (squeeze g)) := by
  unfold separated
  cases hl : listSeparator ⟨n, s⟩ with
  | none =>
    have h1 : (do let _ ← listSeparator; opt az : Peg (Option Str)) ⟨n, s⟩ = none := bind_none hl
    exact ⟨⟨n, s⟩, by rw [bind_some (opt_none h1)]; rfl, h, .inl rfl⟩
  | some x =>
    obtain ⟨⟨⟩, k⟩ := x
    obtain ⟨c, o, hc, ho, hn, hg⟩ := passes_listSeparator (ms := ms) hl
    cases ha : az k with
    | none =>
      have h1 : (do let _ ← listSeparator; opt az : Peg (Option Str)) ⟨n, s⟩ = some (none, k) := by rw [bind_some hl]; exact opt_none ha
      refine ⟨k, by rw [bind_some (opt_some h1)]; rfl, hg.2 h, .inr ?_⟩
      obtain ⟨g, h2, h3⟩ := hg.1
      exact ⟨g, h2, c, o, [], by rw [h3, List.append_nil], hc, ho, by simp, hn⟩
    | some x =>
      obtain ⟨a, l⟩ := x
      obtain ⟨t, ht, hg'⟩ := passes_az (ms := ms) ha
      have h1 : (do let _ ← listSeparator; opt az : Peg (Option Str)) ⟨n, s⟩ = some (some a, l) := by rw [bind_some hl]; exact opt_some ha
      have hg := hg.trans hg'
      refine ⟨l, by rw [bind_some (opt_some h1)]; rfl, hg.2 h, .inr ?_⟩
      obtain ⟨g, h2, h3⟩ := hg.1
      exact ⟨g, h2, c, o, t, h3, hc, ho, List.mem_cons_of_mem _ ht, hn⟩

/-! ## References one after the other -/

theorem reference_skip (i : At) : reference i.skip = reference i := located_skip _ _

theorem itemStart_first {s : Str} (h : ItemStart s) : NotFirst (py")-–−") s := by
  obtain ⟨c, t, rfl, hc⟩ := h
  have h1 : ItemStart (c :: t) := ⟨c, t, rfl, hc⟩
  refine notFirst_cons (itemStart_not_space h1) ?_
  have cl : ∀ d ∈ py")-–−", isAsciiDigit d = false ∧ d ≠ '(' ∧ isLowerAz d = false := by decide +kernel
  intro hd
  obtain ⟨c1, c2, c3⟩ := cl c hd
  rcases hc with h | h | ⟨h, _⟩
  · rw [c1] at h; cases h
  · exact c2 h
  · rw [c3] at h; cases h

/-- Where references are separated, the first one ends. -/
theorem separator_quiet {g s : Str} (hg : SeparatorText g) (hs : ItemStart s) : Quiet (g ++ s) := by
  obtain ⟨c, o, a, rfl, hc, ho, ha, hn⟩ := hg
  have cl : ∀ c ∈ py",;", isSpace c = false ∧ ¬ hunLetter c ∧ isAsciiDigit c = false ∧ c ∉ py"-(„" ∧ c ∉ py"-–−" := by decide +kernel
  have comma : ∀ c ∈ py",;", ∀ t : Str, Quiet (c :: t) := by
    intro c hc t
    obtain ⟨c1, c2, c3, c4, c5⟩ := cl c hc
    refine quiet_of ?_ (.inr ⟨[c], t, dropWhile_cons_of c1, .mark c2 c3 c1 c4⟩) ?_
    · rintro _ ⟨⟩
      have : ∀ c ∈ py",;", c ∈ py" ,.;:)?!”" := by decide
      exact this c hc
    · intro d u he hd
      rw [dropWhile_cons_of c1] at he
      cases he
      exact absurd hd c5
  have word : ∀ w ∈ joiningWords, ∀ t : Str, t.head? = some ' ' → NotFirst (py")-–−") t → Quiet (' ' :: w ++ t) := by
    intro w hw t ht hf
    have hlow : ∀ t ∈ joiningWords, t ≠ [] ∧ (∀ c ∈ t, hunLower c) ∧ (∀ c ∈ t, c ≠ '-' ∧ c ∉ py"-–−") := by unfold hunLower; decide +kernel
    obtain ⟨h1, h2, h3⟩ := hlow w hw
    obtain ⟨x, w, rfl⟩ := List.exists_cons_of_ne_nil h1
    have hx : isSpace x = false := letter_not_space (.inl (h2 x (List.mem_cons_self ..)))
    have e : (' ' :: (x :: w) ++ t).dropWhile isSpace = x :: w ++ t := by
      rw [List.cons_append, dropWhile_space, List.cons_append, dropWhile_cons_of hx]
    refine quiet_of (by rintro _ ⟨⟩; decide) (.inr ⟨x :: w, t, e, ?_⟩) ?_
    · refine .word h1 (fun c hc => .inl (.inl (h2 c hc))) (fun c hc => (h3 c (List.mem_of_mem_take hc)).1) ?_ (fun _ => hf) (.inl ?_)
      · intro c hc
        rw [ht] at hc
        cases hc
        decide +kernel
      · rintro _ ⟨⟩
        exact h2 x (List.mem_cons_self ..)
    · intro d u he hd
      rw [e] at he
      cases he
      exact absurd hd (h3 x (List.mem_cons_self ..)).2
  have hrest : (a ++ (py" ") ++ s).head? = some ' ' ∧ NotFirst (py")-–−") (a ++ (py" ") ++ s) := by
    simp only [List.mem_cons, List.not_mem_nil, or_false] at ha
    rcases ha with rfl | rfl | rfl
    · refine ⟨rfl, ?_⟩
      intro d hd
      rw [List.nil_append, List.singleton_append, first_space] at hd
      exact itemStart_first hs d hd
    · refine ⟨rfl, ?_⟩
      intro d hd
      rw [List.append_assoc, List.cons_append, first_space] at hd
      exact notFirst_cons (c := 'a') (by decide) (by decide) d hd
    · refine ⟨rfl, ?_⟩
      intro d hd
      rw [List.append_assoc, List.cons_append, first_space] at hd
      exact notFirst_cons (c := 'a') (by decide) (by decide) d hd
  have e : c ++ o ++ a ++ (py" ") ++ s = c ++ (o ++ (a ++ (py" ") ++ s)) := by simp
  rw [e]
  simp only [List.mem_cons, List.not_mem_nil, or_false] at hc
  rcases hc with rfl | rfl | rfl
  · have ho' : ∃ w ∈ joiningWords, o = ' ' :: w := by
      simp only [List.mem_cons, List.not_mem_nil, or_false] at ho
      rcases ho with rfl | rfl | rfl | rfl | rfl
      · exact absurd rfl (hn rfl)
      all_goals exact ⟨_, by simp, rfl⟩
    obtain ⟨w, hw, rfl⟩ := ho'
    exact word w hw _ hrest.1 hrest.2
  · exact comma ',' (by decide) _
  · exact comma ';' (by decide) _

theorem references_start {n : Nat} {rs : List ParsedRef} {v : Str} (h : ReferencesText n rs v) (rest : Str) : ItemStart (v ++ rest) := by
  cases h with
  | one h => exact reference_start h rest
  | cons h _ _ => simp only [List.append_assoc]; exact reference_start h _

/-- References one after the other are read, with what separates them. -/
theorem references_read {n : Nat} {rs : List ParsedRef} {v : Str} (h : ReferencesText n rs v) : ∀ {s : Str} {j k : At}, Quiet s →
    separated ⟨n + v.length, s⟩ = some ((), k) → k.rest.length ≤ s.length → j.skip = ⟨n, v ++ s⟩ → (v ++ s).length ≤ j.rest.length →
    Steps listedReference j rs k := by
  induction h with
  | @one n ps w h =>
    intro s j k hq hk hkl hj hl
    have h1 : listedReference ⟨n, w ++ s⟩ = some ((ps, ↑n, ↑(n + w.length)), k) := by
      unfold listedReference item
      rw [bind_some (reference_read h hq), bind_some hk]
      rfl
    have h2 : listedReference j = some ((ps, ↑n, ↑(n + w.length)), k) := by
      rw [← h1, ← hj]
      unfold listedReference item
      exact (bind_congr (reference_skip j)).symm
    refine .cons h2 ?_ (.nil _)
    obtain ⟨c, t, he, _⟩ := (reference_start h []).head
    rw [List.append_nil] at he
    rw [he] at hl
    simp at hl
    omega
  | @cons n ps w g rs v h hg hs ih =>
    intro s j k hq hk hkl hj hl
    have hst := references_start hs s
    obtain ⟨j', h2, h3, h4⟩ := separated_reads hg hst (n + w.length)
    have h1 : listedReference ⟨n, w ++ (g ++ (v ++ s))⟩ = some ((ps, ↑n, ↑(n + w.length)), j') := by
      unfold listedReference item
      rw [bind_some (reference_read h (separator_quiet hg hst)), bind_some h2]
      rfl
    have e : w ++ g ++ v ++ s = w ++ (g ++ (v ++ s)) := by simp
    rw [e] at hj hl
    have h5 : listedReference j = some ((ps, ↑n, ↑(n + w.length)), j') := by
      rw [← h1, ← hj]
      unfold listedReference item
      exact (bind_congr (reference_skip j)).symm
    refine .cons h5 ?_ (ih hq ?_ hkl h3 ?_)
    · obtain ⟨c, t, he, _⟩ := (reference_start h []).head
      rw [List.append_nil] at he
      rw [he] at hl
      simp at hl h4
      omega
    · rw [← hk]
      simp only [List.length_append, Nat.add_assoc]
    · obtain ⟨sp, _, h6, _⟩ := skip_spaces j'
      rw [h6, h3]
      simp

/-! ## Expressions -/

theorem pauses_fails {s : Str} (h : Pauses s) : Fails reference s := by
  refine fails_reference fun k => ?_
  rcases h with h | ⟨w, rest, h, hw⟩
  · rw [h]; exact fails_end k rfl
  · rw [h]; exact plain_fails hw k

theorem pauses_listed {s : Str} (h : Pauses s) : Fails listedReference s := (pauses_fails h).bind

theorem act_expression {n : Nat} {a : ParsedActRef} {w s : Str} {rs : List ParsedRef} {k : At} (h : ActText n a w s)
    (hs : Steps listedReference ⟨n + w.length, s⟩ rs k) (hk : listedReference k = none) :
    anySimpleExpression ⟨n, w ++ s⟩ = some (.node (.compoundReference (some a) rs) [.node (.actReference a) []], k) := by
  obtain ⟨c, t, rfl, hc⟩ := act_start h
  have hsp := act_not_space hc
  have hq : c ≠ '„' := by
    rcases hc with hc | hc
    · exact ne_of_class hc
    · exact letter_ne (upper_letter hc)
  have hsk : (⟨n, c :: t ++ s⟩ : At).skip = ⟨n, c :: t ++ s⟩ := skip_cons hsp n
  have hnq : Fails (do let _ ← quote; pure (ParseTree.node .other [])) (c :: t ++ s) :=
    (fails_quote (notFirst_cons hsp (by simpa using hq))).bind
  have h1 : compoundReference ⟨n, c :: t ++ s⟩ = some (.node (.compoundReference (some a) rs) [.node (.actReference a) []], k) := by
    unfold compoundReference rule
    rw [hsk]
    refine or_left ?_
    rw [bind_some (act_read h), bind_some (many_steps hs hk)]
    rfl
  unfold anySimpleExpression rule
  rw [hsk, or_right (hnq n), or_left h1]

/-! ## Sentences -/

/-- The tree of a mention. -/
def mentionTree (m : Mention) : ParseTree := .node (.compoundReference m.1 m.2) (m.1.toList.map fun a => .node (.actReference a) [])

/-- The trees are these mentions, with nothing between them. -/
inductive Passed : List ParseTree → List Mention → Prop
  | nil : Passed [] []
  | other {ts ms} (h : Passed ts ms) : Passed (.node .other [] :: ts) ms
  | mention {ts ms m} (h : Passed ts ms) : Passed (mentionTree m :: ts) (m :: ms)

theorem expression_skip (i : At) : anySimpleExpression i.skip = anySimpleExpression i := rule_skip _ _

theorem ordinary_steps : ∀ (N : Nat) (n : Nat) (s : Str) (ms : List Mention), s.length ≤ N → Ordinary n s ms →
    ∃ ts k, Steps anySimpleExpression ⟨n, s⟩ ts k ∧ k.skip.rest = [] ∧ Passed ts ms := by
  intro N
  induction N with
  | zero =>
    intro n s ms hN h
    have hs : s = [] := List.length_eq_zero_iff.mp (by omega)
    subst hs
    generalize hx : ([] : Str) = x at h
    have no : ∀ {w v : Str}, [] = w ++ v → (∃ d t, w = d :: t) → False := by
      rintro w v he ⟨d, t, rfl⟩
      cases he
    cases h with
    | done => exact ⟨[], _, .nil _, rfl, .nil⟩
    | space => cases hx
    | plain hw _ => obtain ⟨c, t, h, _⟩ := plain_not_space hw; exact (no hx ⟨c, t, h⟩).elim
    | reference hw _ _ _ _ =>
      have := reference_start hw []
      rw [List.append_nil] at this
      obtain ⟨c, t, h, _⟩ := this.head
      exact (no hx ⟨c, t, h⟩).elim
    | act hw _ _ => obtain ⟨c, t, h, _⟩ := act_start hw; exact (no hx ⟨c, t, h⟩).elim
    | actWith hw _ _ _ _ _ =>
      obtain ⟨c, t, h, _⟩ := act_start hw
      rw [List.append_assoc] at hx
      exact (no hx ⟨c, t, h⟩).elim
  | succ N IH =>
    intro n s ms hN h
    cases h with
    | done => exact ⟨[], _, .nil _, rfl, .nil⟩
    | @space _ c s _ hc h =>
      obtain ⟨ts, k, hs, hk, hp⟩ := IH (n + 1) s ms (by simpa using hN) h
      cases hs with
      | nil =>
        refine ⟨[], _, .nil _, ?_, hp⟩
        rw [skip_space hc]
        exact hk
      | cons h hl hs =>
        refine ⟨_, k, .cons ?_ ?_ hs, hk, hp⟩
        · rw [← expression_skip, skip_space hc, expression_skip]; exact h
        · exact Nat.lt_succ_of_lt hl
    | @plain _ w s _ hw h =>
      obtain ⟨c, t, hc, _⟩ := plain_not_space hw
      have hlen : s.length < (w ++ s).length := by rw [hc]; simp; omega
      obtain ⟨ts, k, hs, hk, hp⟩ := IH _ s ms (by omega) h
      exact ⟨_, k, .cons (plain_read hw n) hlen hs, hk, .other hp⟩
    | @reference _ ps w s ms hw he hp' hd h =>
      have hst := reference_start hw []
      rw [List.append_nil] at hst
      obtain ⟨c, t, hc, _⟩ := hst.head
      have hlen : s.length < (w ++ s).length := by rw [hc]; simp; omega
      obtain ⟨ts, k, hs, hk, hp⟩ := IH _ s ms (by omega) h
      exact ⟨_, k, .cons (reference_expression hw (quiet_of he hp' hd)) hlen hs, hk, .mention (m := (none, _)) hp⟩
    | @act _ a w s ms hw hp' h =>
      obtain ⟨c, t, hc, _⟩ := act_start hw
      have hlen : s.length < (w ++ s).length := by rw [hc]; simp; omega
      obtain ⟨ts, k, hs, hk, hp⟩ := IH _ s ms (by omega) h
      exact ⟨_, k, .cons (act_expression hw (.nil _) (pauses_listed hp' _)) hlen hs, hk, .mention (m := (some a, [])) hp⟩
    | @actWith _ a w rs v s ms hw hv he hp' hd h =>
      obtain ⟨c, t, hc, _⟩ := act_start hw
      obtain ⟨j, h1, h2, h3⟩ := separated_passes h
      have hjl : j.rest.length ≤ s.length := by
        rcases h3 with rfl | ⟨g, h3, _⟩
        · exact Nat.le_refl _
        · rw [h3]; simp
      have hpj : Pauses j.rest := by
        rcases h3 with rfl | ⟨g, h3, h4⟩
        · exact hp'.1
        · exact hp'.2 g _ h3 h4
      have hlen : j.rest.length < (w ++ ' ' :: v ++ s).length := by
        rw [hc]
        simp
        omega
      obtain ⟨ts, k, hs, hk, hp⟩ := IH j.pos j.rest ms (by omega) h2
      obtain ⟨x, y, hxy, hx⟩ := (references_start hv s).head
      have hsteps : Steps listedReference ⟨n + w.length, ' ' :: v ++ s⟩ rs j := by
        refine references_read hv (quiet_of he hp'.1 hd) h1 hjl ?_ (by simp)
        rw [List.cons_append, skip_space (by decide), hxy, skip_cons hx]
      have h5 := act_expression hw hsteps (pauses_listed hpj _)
      rw [← List.append_assoc] at h5
      exact ⟨_, k, .cons h5 hlen hs, hk, .mention (m := (some a, rs)) hp⟩

end Verif.ActGrammar
