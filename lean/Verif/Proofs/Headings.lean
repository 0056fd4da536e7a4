import Verif.Proofs.Ordinals
import Verif.Proofs.Roman
import Verif.Proofs.ParsedAct
import Verif.Spec.Recognition

/-! # The header expressions accept what headers look like -/

namespace Verif

open Spec

theorem digits_split {n rest : Str} (hn : ∀ c ∈ n, isAsciiDigit c = true)
    (hr : ∀ c, rest.head? = some c → isAsciiDigit c = false) :
    (n ++ rest).takeWhile isAsciiDigit = n ∧ (n ++ rest).dropWhile isAsciiDigit = rest := by
  rw [List.takeWhile_append_of_pos hn, List.dropWhile_append_of_pos hn]
  cases rest with
  | nil => simp
  | cons c cs => simp [hr c rfl]

theorem newline_split {s : Str} (h : '\n' ∉ beforeFinalNewline s) :
    ∃ text nl, s = text ++ nl ∧ '\n' ∉ text ∧ Newline nl := by
  obtain ⟨nl, h1, h2⟩ := final_newline s
  exact ⟨_, nl, h1, h, h2⟩

theorem beforeFinal_append {text nl : Str} (ht : '\n' ∉ text) (hn : Newline nl) : beforeFinalNewline (text ++ nl) = text := by
  unfold beforeFinalNewline
  rcases hn with rfl | rfl
  · rw [List.append_nil, if_neg]
    intro h
    exact ht (List.mem_of_getLast? h)
  · simp

/-! ## Articles -/

theorem matchArticleTail_iff {s : Str} : matchArticleTail s = true ↔
    ∃ gap text nl, (gap = [] ∨ gap = py" ") ∧ '\n' ∉ text ∧ Newline nl ∧ s = py"." ++ gap ++ py"§ " ++ text ++ nl := by
  constructor
  · intro h
    unfold matchArticleTail at h
    split at h
    · rename_i rest
      obtain ⟨text, nl, rfl, h1, h2⟩ := newline_split (s := rest) (by simpa using h)
      exact ⟨py" ", text, nl, .inr rfl, h1, h2, by simp⟩
    · rename_i rest
      obtain ⟨text, nl, rfl, h1, h2⟩ := newline_split (s := rest) (by simpa using h)
      exact ⟨[], text, nl, .inl rfl, h1, h2, by simp⟩
    · cases h
  · rintro ⟨gap, text, nl, rfl | rfl, h1, h2, rfl⟩
    · simp [matchArticleTail, beforeFinal_append h1 h2, h1]
    · simp [matchArticleTail, beforeFinal_append h1 h2, h1]

theorem matchArticleNumber_iff {s i : Str} : matchArticleNumber s = some i ↔
    IsArticleTail i ∧ ∃ t, s = i ++ t ∧ matchArticleTail t = true := by
  constructor
  · intro h
    unfold matchArticleNumber at h
    simp only at h
    have hsplit := takeWhile_append_dropWhile' isAsciiDigit s
    cases he : (s.takeWhile isAsciiDigit).isEmpty with
    | true => simp [he] at h
    | false =>
      have hnum := takeWhile_number he
      simp only [he, Bool.false_eq_true, if_false] at h
      split at h
      · rename_i c rest hd
        split at h
        · rename_i hc
          rw [Bool.and_eq_true] at hc
          obtain rfl := Option.some.inj h
          exact ⟨.inr ⟨_, c, hnum, hc.1, rfl⟩, rest, by rw [hd] at hsplit; simpa using hsplit.symm, hc.2⟩
        · cases h
      · split at h
        · rename_i ht
          obtain rfl := Option.some.inj h
          exact ⟨.inl hnum, _, hsplit.symm, ht⟩
        · cases h
  · rintro ⟨hi, t, rfl, ht⟩
    have hdot : ∃ u, t = '.' :: u := by
      obtain ⟨gap, text, nl, _, _, _, rfl⟩ := matchArticleTail_iff.mp ht
      exact ⟨_, by simp; rfl⟩
    obtain ⟨u, rfl⟩ := hdot
    rcases hi with hn | ⟨n, c, hn, hc, rfl⟩
    · obtain ⟨h1, h2⟩ := digits_split (rest := '.' :: u) hn.2 (by intro c h; cases h; rfl)
      unfold matchArticleNumber
      simp only [h1, h2]
      rw [if_neg (by simpa using hn.1)]
      show (if matchArticleTail ('.' :: u) = true then some i else none) = some i
      rw [if_pos ht]
    · rw [List.append_assoc]
      obtain ⟨h1, h2⟩ := digits_split (rest := ['/', c] ++ '.' :: u) hn.2 (by intro c h; cases h; rfl)
      unfold matchArticleNumber
      simp only [h1, h2]
      rw [if_neg (by simpa using hn.1)]
      simp [hc, ht]

theorem matchArticle_iff {s i : Str} : matchArticle s = some i ↔ ArticleHeading s i := by
  have tail : ∀ {i s}, (∃ t, s = i ++ t ∧ matchArticleTail t = true) ↔ ∃ gap text newline, (gap = [] ∨ gap = py" ") ∧
      '\n' ∉ text ∧ Newline newline ∧ s = i ++ py"." ++ gap ++ py"§ " ++ text ++ newline := by
    intro i s
    constructor
    · rintro ⟨t, rfl, ht⟩
      obtain ⟨gap, text, nl, h1, h2, h3, rfl⟩ := matchArticleTail_iff.mp ht
      exact ⟨gap, text, nl, h1, h2, h3, by simp⟩
    · rintro ⟨gap, text, nl, h1, h2, h3, rfl⟩
      exact ⟨_, by simp only [List.append_assoc]; rfl, matchArticleTail_iff.mpr ⟨gap, text, nl, h1, h2, h3, by simp⟩⟩
  unfold ArticleHeading
  rw [← tail]
  constructor
  · intro h
    unfold matchArticle at h
    simp only at h
    have hsplit := takeWhile_append_dropWhile' isAsciiDigit s
    split at h
    · rename_i rest hd
      cases he : (s.takeWhile isAsciiDigit).isEmpty with
      | true => simp [he] at h
      | false =>
        simp only [he, Bool.false_eq_true, if_false] at h
        cases hm : matchArticleNumber rest with
        | none => simp [hm] at h
        | some n =>
          rw [hm, Option.map_some] at h
          obtain rfl := Option.some.inj h
          obtain ⟨h1, t, rfl, h2⟩ := matchArticleNumber_iff.mp hm
          exact ⟨.inr ⟨_, n, takeWhile_number he, h1, rfl⟩, t, by rw [hd] at hsplit; simpa using hsplit.symm, h2⟩
    · obtain ⟨h1, h2⟩ := matchArticleNumber_iff.mp h
      exact ⟨.inl h1, h2⟩
  · rintro ⟨hi, t, rfl, ht⟩
    rcases hi with hi | ⟨b, j, hb, hj, rfl⟩
    · have hno : matchArticle (i ++ t) = matchArticleNumber (i ++ t) := by
        unfold matchArticle
        simp only
        split
        · rename_i rest hd
          exfalso
          have hdot : ∃ u, t = '.' :: u := by
            obtain ⟨gap, text, nl, _, _, _, rfl⟩ := matchArticleTail_iff.mp ht
            exact ⟨_, by simp; rfl⟩
          obtain ⟨u, rfl⟩ := hdot
          rcases hi with hn | ⟨n, c, hn, hc, rfl⟩
          · rw [(digits_split (rest := '.' :: u) hn.2 (by intro c h; cases h; rfl)).2] at hd
            cases hd
          · rw [List.append_assoc, (digits_split (rest := ['/', c] ++ '.' :: u) hn.2 (by intro c h; cases h; rfl)).2] at hd
            cases hd
        · rfl
      rw [hno]
      exact matchArticleNumber_iff.mpr ⟨hi, t, rfl, ht⟩
    · obtain ⟨h1, h2⟩ := digits_split (rest := ':' :: (j ++ t)) hb.2 (by intro c h; cases h; rfl)
      unfold matchArticle
      simp only [List.append_assoc, List.cons_append, h1, h2]
      rw [if_neg (by simpa using hb.1), matchArticleNumber_iff.mpr ⟨hj, t, rfl, ht⟩]
      rfl

/-! ## Structural elements -/

theorem matchSubtitle_iff {s i : Str} : matchSubtitle s = some i ↔ IsArticleTail i ∧ ∃ text, s = i ++ py". " ++ text := by
  constructor
  · intro h
    unfold matchSubtitle at h
    simp only at h
    have hsplit := takeWhile_append_dropWhile' isAsciiDigit s
    cases he : (s.takeWhile isAsciiDigit).isEmpty with
    | true => simp [he] at h
    | false =>
      have hnum := takeWhile_number he
      simp only [he, Bool.false_eq_true, if_false] at h
      split at h
      · rename_i rest hd
        obtain rfl := Option.some.inj h
        exact ⟨.inl hnum, rest, by rw [hd] at hsplit; simpa using hsplit.symm⟩
      · rename_i c rest hd
        split at h
        · rename_i hc
          obtain rfl := Option.some.inj h
          exact ⟨.inr ⟨_, c, hnum, hc, rfl⟩, rest, by rw [hd] at hsplit; simpa using hsplit.symm⟩
        · cases h
      · cases h
  · rintro ⟨hi, t, rfl⟩
    rcases hi with hn | ⟨n, c, hn, hc, rfl⟩
    · obtain ⟨h1, h2⟩ := digits_split (rest := '.' :: ' ' :: t) hn.2 (by intro c h; cases h; rfl)
      unfold matchSubtitle
      simp only [List.append_assoc, List.cons_append, List.nil_append, h1, h2]
      rw [if_neg (by simpa using hn.1)]
    · obtain ⟨h1, h2⟩ := digits_split (rest := '/' :: c :: '.' :: ' ' :: t) hn.2 (by intro c h; cases h; rfl)
      unfold matchSubtitle
      simp only [List.append_assoc, List.cons_append, List.nil_append, h1, h2]
      rw [if_neg (by simpa using hn.1), if_pos hc]

theorem matchSuffix_iff {eq : Str → Str → Bool} {suffix s g : Str} (hlen : ∀ a, eq a suffix = true → a.length = suffix.length)
    (hnl : ∀ a, eq a suffix = true → '\n' ∉ a) :
    matchSuffix eq suffix s = some g ↔
      ∃ name nl, '\n' ∉ g ∧ Newline nl ∧ s = g ++ name ++ nl ∧ eq name suffix = true := by
  constructor
  · intro h
    unfold matchSuffix at h
    simp only at h
    split at h
    · rename_i hc
      rw [Bool.and_eq_true] at hc
      obtain rfl := Option.some.inj h
      obtain ⟨nl, h1, h2⟩ := final_newline s
      exact ⟨_, nl, by simpa using hc.2, h2, by rw [List.take_append_drop]; exact h1, hc.1⟩
    · cases h
  · rintro ⟨name, nl, h1, h2, rfl, h4⟩
    have hb : beforeFinalNewline (g ++ name ++ nl) = g ++ name :=
      beforeFinal_append (by rw [List.mem_append]; exact fun h => h.elim h1 (hnl _ h4)) h2
    unfold matchSuffix
    simp only [hb]
    have hl : (g ++ name).length - suffix.length = g.length := by rw [List.length_append, hlen _ h4]; omega
    rw [hl, List.drop_left, List.take_left, if_pos (by simp [h4, h1])]

theorem specialPartId_iff {s i : Str} : specialPartId s = some i ↔ ∃ n, namedParts[n]? = some s ∧ i = natStr (n + 1) := by
  refine ⟨specialPartId_some, ?_⟩
  rintro ⟨n, h1, rfl⟩
  have hn : n < 3 := by
    obtain ⟨h, _⟩ := List.getElem?_eq_some_iff.mp h1
    exact h
  match n, hn with
  | 0, _ => obtain rfl := (Option.some.inj h1); decide
  | 1, _ => obtain rfl := (Option.some.inj h1); decide
  | 2, _ => obtain rfl := (Option.some.inj h1); decide

theorem specialPartId_none {s : Str} : specialPartId s = none ↔ s ∉ namedParts := by
  constructor
  · intro h hm
    obtain ⟨n, hn⟩ := List.getElem?_of_mem hm
    rw [specialPartId_iff.mpr ⟨n, hn, rfl⟩] at h
    cases h
  · intro h
    cases hs : specialPartId s with
    | none => rfl
    | some i =>
      obtain ⟨n, hn, _⟩ := specialPartId_iff.mp hs
      exact absurd (List.mem_of_getElem? hn) h

theorem caseChar {c d : Char} (hd : d ∈ py". fejezet") :
    (if isUpperAz c then Char.ofNat (c.toNat + 0x20) else c) = d ↔ c = d ∨ c = d.toUpper := by
  by_cases hu : isUpperAz c = true
  · rw [if_pos hu]
    have hc : 65 ≤ c.toNat ∧ c.toNat < 91 := by
      simp only [isUpperAz, Bool.and_eq_true, decide_eq_true_eq] at hu
      have h1 : 'A'.val ≤ c.val := hu.1
      have h2 : c.val ≤ 'Z'.val := hu.2
      have h1 : 65 ≤ c.toNat := UInt32.le_iff_toNat_le.mp h1
      have h2 : c.toNat ≤ 90 := UInt32.le_iff_toNat_le.mp h2
      omega
    have table : ∀ n, n < 91 → 65 ≤ n → ∀ d ∈ py". fejezet",
        Char.ofNat (n + 0x20) = d ↔ Char.ofNat n = d ∨ Char.ofNat n = d.toUpper := by decide +kernel
    have := table c.toNat hc.2 hc.1 d hd
    rwa [Char.ofNat_toNat] at this
  · rw [if_neg hu]
    refine ⟨.inl, fun h => h.elim id fun h => ?_⟩
    subst h
    simp only [List.mem_cons, List.not_mem_nil, or_false] at hd
    rcases hd with rfl | rfl | rfl | rfl | rfl | rfl | rfl | rfl | rfl <;> first | rfl | exact absurd (by decide) hu

theorem ignoreCase_iff {a b : Str} (hb : ∀ d ∈ b, d ∈ py". fejezet") :
    ignoreCaseEq a b = true ↔ Both (fun c d => c = d ∨ c = d.toUpper) a b := by
  unfold ignoreCaseEq
  rw [beq_iff_eq]
  induction b generalizing a with
  | nil =>
    cases a with
    | nil => exact ⟨fun _ => .nil, fun _ => rfl⟩
    | cons => exact ⟨fun h => by simp at h, fun h => by cases h⟩
  | cons d b ih =>
    cases a with
    | nil => exact ⟨fun h => by simp at h, fun h => by cases h⟩
    | cons c a =>
      rw [List.map_cons, List.cons.injEq, caseChar (hb d (by simp)), ih fun d hd => hb d (by simp [hd])]
      exact ⟨fun h => .cons h.1 h.2, fun h => by cases h; exact ⟨‹_›, ‹_›⟩⟩

theorem extract_iff {k : StructKind} {line : Line} {i : Str} :
    k.extractIdentifier line = .ok (some i) ↔
      ((if k = .part then specialPartId line.content else none) = some i) ∨
      ((if k = .part then specialPartId line.content else none) = none ∧
        ∃ g, k.matchHeader line.content = some g ∧ k.identifierFromString g = .ok i) := by
  constructor
  · intro h
    cases hp : (if k = .part then specialPartId line.content else none) with
    | none => exact .inr ⟨rfl, StructKind.extract_cases h hp⟩
    | some j =>
      unfold StructKind.extractIdentifier at h
      rw [hp] at h
      simp only [Except.ok.injEq, Option.some.injEq] at h
      exact .inl (by rw [h])
  · rintro (h | ⟨h1, g, h2, h3⟩)
    · unfold StructKind.extractIdentifier
      rw [h]
    · unfold StructKind.extractIdentifier
      rw [h1]
      simp only [h2, h3]

theorem plainSuffix_iff {suffix s g : Str} (hs : '\n' ∉ suffix) : matchSuffix (· == ·) suffix s = some g ↔
    ∃ nl, '\n' ∉ g ∧ Newline nl ∧ s = g ++ suffix ++ nl := by
  rw [matchSuffix_iff (by intro a h; rw [beq_iff_eq.mp h]) (by intro a h; rw [beq_iff_eq.mp h]; exact hs)]
  constructor
  · rintro ⟨name, nl, h1, h2, h3, h4⟩
    rw [beq_iff_eq.mp h4] at h3
    exact ⟨nl, h1, h2, h3⟩
  · rintro ⟨nl, h1, h2, h3⟩
    exact ⟨suffix, nl, h1, h2, h3, by simp⟩

theorem identifier_number {g i : Str} : (do let n ← textToIntHun g; Except.ok (natStr n) : Res Str) = .ok i ↔
    ∃ n, OrdinalOf g n ∧ i = natStr n := by
  constructor
  · intro h
    obtain ⟨n, h1, h2⟩ := resBind_ok h
    exact ⟨n, (textToIntHun_ok g n).mp h1, (Except.ok.inj h2).symm⟩
  · rintro ⟨n, h1, rfl⟩
    rw [(textToIntHun_ok g n).mpr h1]; rfl

theorem structHeading_iff {k : StructKind} {line : Line} {i : Str} :
    k.extractIdentifier line = .ok (some i) ↔ StructHeading k line.content i := by
  rw [extract_iff]
  cases k with
  | subtitle =>
    simp only [reduceCtorEq, if_false, false_or, true_and, StructHeading, StructKind.matchHeader,
      StructKind.identifierFromString, matchSubtitle_iff]
    constructor
    · rintro ⟨g, h1, h2⟩
      obtain rfl := Except.ok.inj h2
      exact h1
    · intro h
      exact ⟨i, h, rfl⟩
  | book =>
    simp only [reduceCtorEq, if_false, false_or, true_and, StructHeading, StructKind.matchHeader,
      StructKind.identifierFromString, plainSuffix_iff (suffix := py" KÖNYV") (by decide), identifier_number]
    constructor
    · rintro ⟨g, ⟨nl, h1, h2, h3⟩, n, h4, h5⟩
      exact ⟨g, nl, n, h1, h2, h3, h4, h5⟩
    · rintro ⟨g, nl, n, h1, h2, h3, h4, h5⟩
      exact ⟨g, ⟨nl, h1, h2, h3⟩, n, h4, h5⟩
  | part =>
    simp only [if_true, StructHeading, StructKind.matchHeader, StructKind.identifierFromString,
      plainSuffix_iff (suffix := py" RÉSZ") (by decide), identifier_number, specialPartId_iff, specialPartId_none]
    constructor
    · rintro (h | ⟨h, g, ⟨nl, h1, h2, h3⟩, n, h4, h5⟩)
      · exact .inl h
      · exact .inr ⟨h, g, nl, n, h1, h2, h3, h4, h5⟩
    · rintro (h | ⟨h, g, nl, n, h1, h2, h3, h4, h5⟩)
      · exact .inl h
      · exact .inr ⟨h, g, ⟨nl, h1, h2, h3⟩, n, h4, h5⟩
  | title =>
    simp only [reduceCtorEq, if_false, false_or, true_and, StructHeading, StructKind.matchHeader,
      StructKind.identifierFromString, plainSuffix_iff (suffix := py". CÍM") (by decide), romanToArabic_iff]
    constructor
    · rintro ⟨g, ⟨nl, h1, h2, h3⟩, h4⟩
      exact ⟨g, nl, h1, h2, h3, h4⟩
    · rintro ⟨g, nl, h1, h2, h3, h4⟩
      exact ⟨g, ⟨nl, h1, h2, h3⟩, h4⟩
  | chapter =>
    have hfe : ∀ a, ignoreCaseEq a (py". fejezet") = true → '\n' ∉ a := by
      intro a h hm
      have hx : ∀ c ∈ a, (if isUpperAz c then Char.ofNat (c.toNat + 0x20) else c) ∈ py". fejezet" := by
        intro c hc
        rw [← beq_iff_eq.mp h]
        exact List.mem_map.mpr ⟨c, hc, rfl⟩
      exact absurd (hx _ hm) (by decide)
    have hlen : ∀ a, ignoreCaseEq a (py". fejezet") = true → a.length = (py". fejezet").length := by
      intro a h
      rw [← beq_iff_eq.mp h]
      simp
    simp only [reduceCtorEq, if_false, false_or, true_and, StructHeading, StructKind.matchHeader,
      StructKind.identifierFromString, matchSuffix_iff hlen hfe, ignoreCase_iff (b := py". fejezet") fun _ h => h,
      romanToArabic_iff]
    constructor
    · rintro ⟨g, ⟨name, nl, h1, h2, h3, h4⟩, h5⟩
      exact ⟨g, name, nl, h1, h2, h3, h4, h5⟩
    · rintro ⟨g, name, nl, h1, h2, h3, h4, h5⟩
      exact ⟨g, ⟨name, nl, h1, h2, h3, h4⟩, h5⟩

/-! ## Which parser takes the line -/

def BodyParser.rank : BodyParser → Nat
  | .article => 0
  | .struct .book => 1
  | .struct .part => 2
  | .struct .title => 3
  | .struct .chapter => 4
  | .struct .subtitle => 5

theorem upper_iff {c : Char} : (isUpperAz c || (py"ÉÁŐÚŰÖÜÓÍ").contains c) = true ↔
    c ∈ py"ABCDEFGHIJKLMNOPQRSTUVWXYZÁÉÍÓÖŐÚÜŰ" := by
  constructor
  · intro h
    rw [Bool.or_eq_true] at h
    rcases h with hu | h
    · have hc : 65 ≤ c.toNat ∧ c.toNat < 91 := by
        simp only [isUpperAz, Bool.and_eq_true, decide_eq_true_eq] at hu
        have h1 : 'A'.val ≤ c.val := hu.1
        have h2 : c.val ≤ 'Z'.val := hu.2
        have h1 : 65 ≤ c.toNat := UInt32.le_iff_toNat_le.mp h1
        have h2 : c.toNat ≤ 90 := UInt32.le_iff_toNat_le.mp h2
        omega
      have table : ∀ n, n < 91 → 65 ≤ n → Char.ofNat n ∈ py"ABCDEFGHIJKLMNOPQRSTUVWXYZÁÉÍÓÖŐÚÜŰ" := by decide +kernel
      have := table c.toNat hc.2 hc.1
      rwa [Char.ofNat_toNat] at this
    · have table : ∀ d ∈ py"ÉÁŐÚŰÖÜÓÍ", d ∈ py"ABCDEFGHIJKLMNOPQRSTUVWXYZÁÉÍÓÖŐÚÜŰ" := by decide +kernel
      exact table c (by simpa using h)
  · intro h
    have table : ∀ d ∈ py"ABCDEFGHIJKLMNOPQRSTUVWXYZÁÉÍÓÖŐÚÜŰ", (isUpperAz d || (py"ÉÁŐÚŰÖÜÓÍ").contains d) = true := by
      decide +kernel
    exact table c h

theorem uppercase_iff {line : Line} : beginsUppercase line = .ok true ↔ Capital line.content := by
  unfold beginsUppercase Capital isUppercaseHun
  cases line.content with
  | nil => exact ⟨fun h => (nomatch h), fun ⟨c, r, h, _⟩ => nomatch h⟩
  | cons c r =>
    simp only [List.all_cons, List.all_nil, Bool.and_true, Except.ok.injEq]
    rw [upper_iff]
    constructor
    · intro h; exact ⟨c, r, rfl, h⟩
    · rintro ⟨_, _, h, h'⟩; cases h; exact h'

theorem capital_no_number {line : Line} (h : Capital line.content) : StructKind.subtitle.extractIdentifier line = .ok none := by
  obtain ⟨c, r, h1, h2⟩ := h
  have hd : isAsciiDigit c = false := by
    have table : ∀ d ∈ py"ABCDEFGHIJKLMNOPQRSTUVWXYZÁÉÍÓÖŐÚÜŰ", isAsciiDigit d = false := by decide +kernel
    exact table c h2
  simp [StructKind.extractIdentifier, StructKind.matchHeader, matchSubtitle, h1, hd]

theorem base_true {strict : Bool} {last : Str} {k : StructKind} {line : Line}
    (h : k.isHeaderBase strict last line = .ok true) :
    ∃ i, k.extractIdentifier line = .ok (some i) ∧ StructHeading k line.content i ∧ NextNumber strict last i := by
  unfold StructKind.isHeaderBase at h
  obtain ⟨r, hr, h⟩ := resBind_ok h
  cases r with
  | none => cases h
  | some i =>
    refine ⟨i, hr, structHeading_iff.mp hr, ?_⟩
    intro hs
    subst hs
    simp only [Bool.not_true, Bool.false_eq_true, if_false] at h
    by_cases h1 : i = py"1"
    · exact .inl h1
    · rw [if_neg h1] at h
      exact .inr h

theorem base_false {strict : Bool} {last : Str} {k : StructKind} {line : Line}
    (h : k.isHeaderBase strict last line = .ok false) :
    ∀ i, ¬ (StructHeading k line.content i ∧ NextNumber strict last i) := by
  rintro i ⟨h1, h2⟩
  unfold StructKind.isHeaderBase at h
  rw [structHeading_iff.mpr h1] at h
  simp only [bind, Except.bind] at h
  cases strict with
  | false => cases h
  | true =>
    simp only [Bool.not_true, Bool.false_eq_true, if_false] at h
    rcases h2 rfl with rfl | h2
    · cases h
    · split at h
      · cases h
      · rw [h2] at h; cases h

theorem subtitle_true {strict : Bool} {last : Str} {line previous : Line}
    (h : subtitleIsHeader strict last line previous = .ok true) :
    line.bold = true ∧ ((Capital line.content ∧ (strict = true → previous.isEmptyLine = true) ∧
        StructKind.subtitle.extractIdentifier line = .ok none) ∨
      ∃ i, StructKind.subtitle.extractIdentifier line = .ok (some i) ∧ StructHeading .subtitle line.content i ∧
        NextNumber strict last i) := by
  unfold subtitleIsHeader at h
  cases hb : line.bold with
  | false => simp [hb] at h
  | true =>
    refine ⟨rfl, ?_⟩
    simp only [hb, Bool.not_true, Bool.false_eq_true, if_false] at h
    cases strict with
    | false =>
      simp only [Bool.not_false, if_true] at h
      obtain ⟨u, hu, h⟩ := resBind_ok h
      cases u with
      | true => exact .inl ⟨uppercase_iff.mp hu, fun h => (nomatch h), capital_no_number (uppercase_iff.mp hu)⟩
      | false =>
        simp only [Bool.false_eq_true, if_false] at h
        obtain ⟨r, hr, h⟩ := resBind_ok h
        cases r with
        | none => cases h
        | some i => exact .inr ⟨i, hr, structHeading_iff.mp hr, fun h => by cases h⟩
    | true =>
      simp only [Bool.not_true, Bool.false_eq_true, if_false] at h
      cases he : previous.isEmptyLine with
      | false =>
        simp only [he, Bool.false_eq_true, if_false] at h
        exact .inr (base_true h)
      | true =>
        simp only [he, if_true] at h
        obtain ⟨u, hu, h⟩ := resBind_ok h
        cases u with
        | true => exact .inl ⟨uppercase_iff.mp hu, fun _ => rfl, capital_no_number (uppercase_iff.mp hu)⟩
        | false =>
          simp only [Bool.false_eq_true, if_false] at h
          exact .inr (base_true h)

theorem subtitle_false {strict : Bool} {last : Str} {line previous : Line}
    (h : subtitleIsHeader strict last line previous = .ok false) (hb : line.bold = true) :
    ¬ (Capital line.content ∧ (strict = true → previous.isEmptyLine = true)) ∧
      ∀ i, ¬ (StructHeading .subtitle line.content i ∧ NextNumber strict last i) := by
  unfold subtitleIsHeader at h
  simp only [hb, Bool.not_true, Bool.false_eq_true, if_false] at h
  cases strict with
  | false =>
    simp only [Bool.not_false, if_true] at h
    obtain ⟨u, hu, h⟩ := resBind_ok h
    cases u with
    | true => cases h
    | false =>
      simp only [Bool.false_eq_true, if_false] at h
      obtain ⟨r, hr, h⟩ := resBind_ok h
      refine ⟨fun hc => ?_, fun i hi => ?_⟩
      · rw [uppercase_iff.mpr hc.1] at hu; cases hu
      · rw [structHeading_iff.mpr hi.1] at hr
        obtain rfl := Except.ok.inj hr
        cases h
  | true =>
    simp only [Bool.not_true, Bool.false_eq_true, if_false] at h
    cases he : previous.isEmptyLine with
    | false =>
      simp only [he, Bool.false_eq_true, if_false] at h
      exact ⟨fun hc => (nomatch hc.2 rfl), base_false h⟩
    | true =>
      simp only [he, if_true] at h
      obtain ⟨u, hu, h⟩ := resBind_ok h
      cases u with
      | true => cases h
      | false =>
        simp only [Bool.false_eq_true, if_false] at h
        exact ⟨fun hc => absurd (hu.symm.trans (uppercase_iff.mpr hc.1)) (by simp), base_false h⟩

theorem similar_iff {a b : Rat} : similarIndent a b = true ↔ a < b + 1 ∧ b < a + 1 := by
  unfold similarIndent
  rw [Bool.and_eq_true, decide_eq_true_eq, decide_eq_true_eq]
  grind

theorem struct_names {k : StructKind} {line : Line} {more : List Line} {n : Node} {r : Option Str}
    (hr : k.extractIdentifier line = .ok r) (h : k.parse (line :: more) = .ok n) : (Opening.structural k r).Names n := by
  simp only [StructKind.parse] at h
  by_cases hk : k = .subtitle
  · subst hk
    rw [if_pos rfl, hr] at h
    simp only [bind, Except.bind] at h
    cases r with
    | none =>
      obtain rfl := Except.ok.inj h
      exact ⟨rfl, rfl⟩
    | some i =>
      simp only at h
      split at h
      · cases h
      · obtain rfl := Except.ok.inj h
        exact ⟨rfl, rfl⟩
  · rw [if_neg hk] at h
    cases hp : (if k = .part then specialPartId line.content else none) with
    | some i =>
      rw [extract_iff.mpr (.inl hp)] at hr
      obtain rfl := Except.ok.inj hr
      simp only [hp] at h
      obtain rfl := Except.ok.inj h
      exact ⟨rfl, rfl⟩
    | none =>
      simp only [hp, hr, bind, Except.bind] at h
      cases r with
      | none => cases h
      | some i =>
        obtain rfl := Except.ok.inj h
        exact ⟨rfl, rfl⟩

theorem article_names {line : Line} {more : List Line} {pi : Bool} {n : Node} {i : Str}
    (hi : matchArticle line.content = some i) (h : parseArticle (line :: more) pi = .ok n) :
    (Opening.article i).Names n := by
  simp only [parseArticle, hi] at h
  cases hs : strFind (py"§ ") line.content with
  | none => simp [hs] at h
  | some k =>
    simp only [hs] at h
    obtain ⟨first, hf, h⟩ := resBind_ok h
    cases hb : articleBody i (first :: more) pi with
    | error e => simp [hb] at h
    | ok a =>
      simp only [hb, Except.ok.injEq] at h
      subst h
      unfold articleBody at hb
      obtain ⟨⟨t, ls⟩, _, hb⟩ := resBind_ok hb
      obtain ⟨ls', _, hb⟩ := resBind_ok hb
      obtain ⟨ps, _, hb⟩ := resBind_ok hb
      unfold mkArticle at hb
      split at hb <;> first | (obtain rfl := Except.ok.inj hb; exact rfl) | cases hb

theorem header_true {p : BodyParser} {strict : Bool} {st : BodyState} {line previous : Line}
    (h : p.isHeader strict st line previous = .ok true) :
    ∃ o, Opens strict st previous line o ∧ o.rank = p.rank ∧
      (∀ st', p.stepToNext st line = .ok st' → st' = remember st line o) ∧
      ∀ more pi n, p.parse (line :: more) pi = .ok n → o.Names n := by
  cases p with
  | article =>
    simp only [BodyParser.isHeader] at h
    split at h
    · cases h
    · rename_i hi
      have hm : (matchArticle line.content).isSome = true := by simpa using h
      obtain ⟨i, hm⟩ := Option.isSome_iff_exists.mp hm
      refine ⟨.article i, ⟨matchArticle_iff.mp hm, ?_⟩, rfl, ?_, ?_⟩
      · intro x hx
        rw [hx] at hi
        have : similarIndent line.indent x = true := by simpa using hi
        exact similar_iff.mp this
      · intro st' hs
        obtain rfl := Except.ok.inj hs
        rfl
      · intro more pi n hn
        exact article_names hm hn
  | struct k =>
    have step : ∀ r, k.extractIdentifier line = .ok r → ∀ st', BodyParser.stepToNext (.struct k) st line = .ok st' →
        st' = remember st line (.structural k r) := by
      intro r hr st' hs
      simp only [BodyParser.stepToNext, hr, bind, Except.bind] at hs
      obtain rfl := Except.ok.inj hs
      rfl
    have names : ∀ r, k.extractIdentifier line = .ok r → ∀ more pi n, BodyParser.parse (.struct k) (line :: more) pi = .ok n →
        (Opening.structural k r).Names n := fun r hr more pi n hn => struct_names hr hn
    by_cases hk : k = .subtitle
    · subst hk
      obtain ⟨hb, ⟨hc, hp, he⟩ | ⟨i, he, hh, hn⟩⟩ := subtitle_true h
      · exact ⟨.structural .subtitle none, ⟨hb, hc, hp⟩, rfl, step _ he, names _ he⟩
      · exact ⟨.structural .subtitle (some i), ⟨hb, hh, hn⟩, rfl, step _ he, names _ he⟩
    · have h : k.isHeaderBase strict (st.last k) line = .ok true := by cases k <;> first | exact h | exact absurd rfl hk
      obtain ⟨i, he, hh, hn⟩ := base_true h
      refine ⟨.structural k (some i), ?_, ?_, step _ he, names _ he⟩
      · cases k <;> first | exact ⟨hh, hn⟩ | exact absurd rfl hk
      · cases k <;> rfl

theorem header_false {p : BodyParser} {strict : Bool} {st : BodyState} {line previous : Line}
    (h : p.isHeader strict st line previous = .ok false) (o : Opening) (ho : o.rank = p.rank) :
    ¬ Opens strict st previous line o := by
  intro hop
  cases o with
  | article i =>
    cases p with
    | struct k => cases k <;> cases ho
    | article =>
      simp only [BodyParser.isHeader] at h
      split at h
      · rename_i hi
        cases hx : st.indent with
        | none => simp [hx] at hi
        | some x =>
          rw [hx] at hi
          have e := similar_iff.mpr (hop.2 x hx)
          simp [e] at hi
      · rw [matchArticle_iff.mpr hop.1] at h
        cases h
  | structural k r =>
    cases p with
    | article => cases k <;> cases ho
    | struct k' =>
      obtain rfl : k = k' := by cases k <;> cases k' <;> first | rfl | cases ho
      by_cases hk : k = .subtitle
      · subst hk
        cases r with
        | none => exact (subtitle_false h hop.1).1 hop.2
        | some i => exact (subtitle_false h hop.1).2 i hop.2
      · have h : k.isHeaderBase strict (st.last k) line = .ok false := by
          cases k <;> first | exact h | exact absurd rfl hk
        cases r with
        | none => cases k <;> first | exact hop | exact absurd rfl hk
        | some i => cases k <;> first | exact base_false h i hop | exact absurd rfl hk

theorem headerParser_cases {strict : Bool} {st : BodyState} {line previous : Line} {ps : List BodyParser}
    {r : Option BodyParser} (h : headerParser strict st line previous ps = .ok r) :
    match r with
    | none => ∀ p ∈ ps, p.isHeader strict st line previous = .ok false
    | some p => ∃ qs rs, ps = qs ++ p :: rs ∧ p.isHeader strict st line previous = .ok true ∧
        ∀ q ∈ qs, q.isHeader strict st line previous = .ok false := by
  induction ps with
  | nil =>
    obtain rfl := Except.ok.inj h
    intro p hp
    cases hp
  | cons q qs ih =>
    rw [headerParser] at h
    obtain ⟨b, hb, h⟩ := resBind_ok h
    cases b with
    | true =>
      obtain rfl := Except.ok.inj h
      exact ⟨[], qs, rfl, hb, by simp⟩
    | false =>
      have := ih (by simpa using h)
      cases r with
      | none =>
        intro p hp
        rcases List.mem_cons.mp hp with rfl | hp
        · exact hb
        · exact this p hp
      | some p =>
        obtain ⟨as, bs, h1, h2, h3⟩ := this
        refine ⟨q :: as, bs, by rw [h1]; rfl, h2, ?_⟩
        intro x hx
        rcases List.mem_cons.mp hx with rfl | hx
        · exact hb
        · exact h3 x hx

theorem rank_mem (o : Opening) : ∃ p ∈ bodyParsers, o.rank = p.rank := by
  cases o with
  | article => exact ⟨.article, by decide, rfl⟩
  | structural k r => exact ⟨.struct k, by cases k <;> decide, by cases k <;> rfl⟩

theorem header_none {strict : Bool} {st : BodyState} {line previous : Line}
    (h : headerParser strict st line previous bodyParsers = .ok none) (o : Opening) : ¬ Opens strict st previous line o := by
  obtain ⟨p, hp, hr⟩ := rank_mem o
  exact header_false (headerParser_cases h p hp) o hr

theorem header_some {strict : Bool} {st : BodyState} {line previous : Line} {p : BodyParser}
    (h : headerParser strict st line previous bodyParsers = .ok (some p)) :
    ∃ o, Opens strict st previous line o ∧ (∀ q, Opens strict st previous line q → o.rank ≤ q.rank) ∧
      (∀ st', p.stepToNext st line = .ok st' → st' = remember st line o) ∧
      ∀ more pi n, p.parse (line :: more) pi = .ok n → o.Names n := by
  obtain ⟨qs, rs, h1, h2, h3⟩ := headerParser_cases h
  obtain ⟨o, ho, hr, hs, hn⟩ := header_true h2
  refine ⟨o, ho, ?_, hs, hn⟩
  intro q hq
  apply Classical.byContradiction
  intro hlt
  rw [hr] at hlt
  have sorted : bodyParsers.Pairwise fun a b => a.rank < b.rank := by decide
  obtain ⟨a, ha, hqa⟩ := rank_mem q
  have : a ∈ qs := by
    rw [h1] at ha sorted
    rcases List.mem_append.mp ha with ha | ha
    · exact ha
    · exfalso
      rw [List.pairwise_append] at sorted
      rcases List.mem_cons.mp ha with rfl | ha
      · omega
      · have := (List.pairwise_cons.mp sorted.2.1).1 a ha
        omega
  exact header_false (h3 a this) q hqa hq

/-! ## The body of an act -/

theorem outline_in (strict pi : Bool) (ls : List Line) : ∀ (seen : List Line) (v v' : BodyLoop) (es : List Node)
    (p : BodyParser) (l0 : Line) (more : List Line), v.parser = some p → v.current = l0 :: more →
    (quoteLevelLoop true (openQuotes seen) ls).stop = none →
    bodyLoop strict pi v (quoteLevelLoop true (openQuotes seen) ls).yields = .ok v' → finishElement pi v' = .ok es →
    ∃ n ns, es = v.elements ++ n :: ns ∧ (∃ more, p.parse (l0 :: more) pi = .ok n) ∧
      Outline strict v.state v.previous seen ls ns := by
  induction ls with
  | nil =>
    intro seen v v' es p l0 more hp hc h0 h he
    obtain rfl := Except.ok.inj h
    unfold finishElement at he
    rw [hp] at he
    obtain ⟨n, hn, he⟩ := resBind_ok he
    obtain rfl := Except.ok.inj he
    exact ⟨n, [], rfl, ⟨more, by rw [← hc]; exact hn⟩, .done _ _ _⟩
  | cons l ls ih =>
    intro seen v v' es p l0 more hp hc h0 h he
    simp only [quoteLevelLoop] at h0 h
    by_cases hneg : openQuotes seen + quoteLevelDiff l.content < 0
    · simp [hneg] at h0
    · simp only [hneg, decide_false, Bool.and_false, Bool.false_eq_true, if_false] at h0 h
      rw [bodyLoop] at h
      obtain ⟨v1, hstep, h⟩ := resBind_ok h
      have hlev : openQuotes seen + quoteLevelDiff l.content = openQuotes (seen ++ [l]) := by
        rw [openQuotes_append, openQuotes_one]
      rw [hlev] at h0 h
      unfold bodyStep at hstep
      by_cases hl : openQuotes seen ≠ 0
      · rw [if_pos hl] at hstep
        obtain rfl := Except.ok.inj hstep
        obtain ⟨n, ns, h1, h2, h3⟩ := ih (seen ++ [l]) { v with current := v.current ++ [l] } v' es p l0 (more ++ [l]) hp (by simp [hc]) h0 h he
        exact ⟨n, ns, h1, h2, .quoted hl h3⟩
      · rw [if_neg hl] at hstep
        have hl' : openQuotes seen = 0 := by simpa using hl
        obtain ⟨r, hr, hstep⟩ := resBind_ok hstep
        cases r with
        | none =>
          obtain rfl := Except.ok.inj hstep
          obtain ⟨n, ns, h1, h2, h3⟩ := ih (seen ++ [l]) { v with previous := l, current := v.current ++ [l] } v' es p l0 (more ++ [l]) hp (by simp [hc]) h0 h he
          exact ⟨n, ns, h1, h2, .continues hl' (header_none hr) h3⟩
        | some q =>
          simp only at hstep
          obtain ⟨elements, hel, hstep⟩ := resBind_ok hstep
          obtain ⟨state, hs, hstep⟩ := resBind_ok hstep
          obtain rfl := Except.ok.inj hstep
          unfold finishElement at hel
          rw [hp] at hel
          obtain ⟨n, hn, hel⟩ := resBind_ok hel
          obtain rfl := Except.ok.inj hel
          obtain ⟨o, ho, hfirst, hst, hnames⟩ := header_some hr
          obtain ⟨n2, ns, h1, ⟨more2, h2⟩, h3⟩ := ih (seen ++ [l]) _ v' es q l [] rfl rfl h0 h he
          refine ⟨n, n2 :: ns, by rw [h1]; simp, ⟨more, by rw [← hc]; exact hn⟩, ?_⟩
          refine .begins hl' ho hfirst (hnames _ _ _ h2) ?_
          rw [← hst _ hs]
          exact h3

theorem outline_before (strict pi : Bool) (ls : List Line) : ∀ (seen : List Line) (v v' : BodyLoop) (es : List Node),
    v.parser = none → v.elements = [] → (quoteLevelLoop true (openQuotes seen) ls).stop = none →
    bodyLoop strict pi v (quoteLevelLoop true (openQuotes seen) ls).yields = .ok v' → finishElement pi v' = .ok es →
    Outline strict v.state v.previous seen ls es := by
  induction ls with
  | nil =>
    intro seen v v' es hp hc h0 h he
    obtain rfl := Except.ok.inj h
    unfold finishElement at he
    rw [hp] at he
    obtain rfl := Except.ok.inj he
    rw [hc]
    exact .done _ _ _
  | cons l ls ih =>
    intro seen v v' es hp hc h0 h he
    simp only [quoteLevelLoop] at h0 h
    by_cases hneg : openQuotes seen + quoteLevelDiff l.content < 0
    · simp [hneg] at h0
    · simp only [hneg, decide_false, Bool.and_false, Bool.false_eq_true, if_false] at h0 h
      rw [bodyLoop] at h
      obtain ⟨v1, hstep, h⟩ := resBind_ok h
      have hlev : openQuotes seen + quoteLevelDiff l.content = openQuotes (seen ++ [l]) := by
        rw [openQuotes_append, openQuotes_one]
      rw [hlev] at h0 h
      unfold bodyStep at hstep
      by_cases hl : openQuotes seen ≠ 0
      · rw [if_pos hl] at hstep
        obtain rfl := Except.ok.inj hstep
        exact .quoted hl (ih (seen ++ [l]) { v with current := v.current ++ [l] } v' es hp hc h0 h he)
      · rw [if_neg hl] at hstep
        have hl' : openQuotes seen = 0 := by simpa using hl
        obtain ⟨r, hr, hstep⟩ := resBind_ok hstep
        cases r with
        | none =>
          obtain rfl := Except.ok.inj hstep
          exact .continues hl' (header_none hr) (ih (seen ++ [l]) { v with previous := l, current := v.current ++ [l] } v' es hp hc h0 h he)
        | some q =>
          simp only at hstep
          obtain ⟨elements, hel, hstep⟩ := resBind_ok hstep
          obtain ⟨state, hs, hstep⟩ := resBind_ok hstep
          obtain rfl := Except.ok.inj hstep
          unfold finishElement at hel
          rw [hp] at hel
          obtain rfl := Except.ok.inj hel
          obtain ⟨o, ho, hfirst, hst, hnames⟩ := header_some hr
          obtain ⟨n2, ns, h1, ⟨more2, h2⟩, h3⟩ := outline_in strict pi ls (seen ++ [l]) _ v' es q l [] rfl rfl h0 h he
          have h1 : es = n2 :: ns := by rw [h1]; simp [hc]
          subst h1
          refine .begins hl' ho hfirst (hnames _ _ _ h2) ?_
          rw [← hst _ hs]
          exact h3

theorem parseElements_outline {strict pi : Bool} {lines : List Line} {es : List Node}
    (h : parseElements strict lines pi = .ok es) : Outline strict {} emptyLine [] lines es := by
  unfold parseElements at h
  simp only at h
  obtain ⟨v, hl, h⟩ := resBind_ok h
  cases hs : (iterateWithQuoteLevel lines).stop with
  | some e => simp [hs] at h
  | none =>
    simp only [hs] at h
    refine outline_before strict pi lines [] {} v es rfl rfl hs hl ?_
    unfold finishElement
    cases hp : v.parser with
    | none => rw [hp] at h; cases h
    | some p => rw [hp] at h; exact h

theorem preamble_none (lines : List Line) : ∀ (previous : Line) (n : Nat), preambleLength previous lines = .ok n →
    ∀ (j : Nat) (l prev : Line), (lines.take n)[j]? = some l → (previous :: lines)[j]? = some prev → ∀ o, ¬ Opens true {} prev l o := by
  induction lines with
  | nil => intro previous n h j l prev hj; simp at hj
  | cons l ls ih =>
    intro previous n h j x prev hj hp
    rw [preambleLength] at h
    obtain ⟨r, hr, h⟩ := resBind_ok h
    cases r with
    | some p =>
      obtain rfl := Except.ok.inj h
      simp at hj
    | none =>
      obtain ⟨m, hm, h⟩ := resBind_ok h
      obtain rfl := Except.ok.inj h
      cases j with
      | zero =>
        simp only [List.take_succ_cons, List.getElem?_cons_zero, Option.some.injEq] at hj hp
        subst hj; subst hp
        exact header_none hr
      | succ j =>
        simp only [List.take_succ_cons, List.getElem?_cons_succ] at hj hp
        exact ih l m hm j x prev hj hp

theorem parseAct_outline {identifier subject : Str} {date : Date} {lines : List Line} {act : Act}
    (h : parseAct identifier date subject lines = .ok act) :
    ∃ pre body, lines = pre ++ body ∧ act.preamble = joinLines pre ∧
      (∀ (j : Nat) (l previous : Line), pre[j]? = some l → (emptyLine :: pre)[j]? = some previous →
        ∀ o, ¬ Opens true {} previous l o) ∧
      Outline true {} emptyLine [] body act.children := by
  unfold parseAct at h
  cases hr : (do
    let (preamble, rest) ← parsePreamble lines
    let elements ← parseElements true rest true
    Except.ok (preamble, elements) : Res (Str × List Node)) with
  | error e => rw [hr] at h; cases h
  | ok r =>
    rw [hr] at h
    obtain ⟨preamble, elements⟩ := r
    obtain rfl := Except.ok.inj h
    obtain ⟨⟨preamble', rest⟩, hp, hr⟩ := resBind_ok hr
    obtain ⟨elements', he, hr⟩ := resBind_ok hr
    simp only [Except.ok.injEq, Prod.mk.injEq] at hr
    obtain ⟨rfl, rfl⟩ := hr
    unfold parsePreamble at hp
    obtain ⟨n, hn, hp⟩ := resBind_ok hp
    simp only [Except.ok.injEq, Prod.mk.injEq] at hp
    obtain ⟨rfl, rfl⟩ := hp
    refine ⟨lines.take n, lines.drop n, (List.take_append_drop n lines).symm, rfl, ?_, parseElements_outline he⟩
    intro j l previous hj hprev
    refine preamble_none lines emptyLine n hn j l previous hj ?_
    cases j with
    | zero => exact hprev
    | succ j =>
      simp only [List.getElem?_cons_succ] at hprev ⊢
      rw [List.getElem?_take] at hprev
      split at hprev
      · exact hprev
      · cases hprev

/-! ## Paragraphs, points and subpoints -/

theorem matchNumbered_iff {s i : Str} : matchNumbered s = some i ↔ IsNumericPointId i ∧ ∃ text, s = i ++ py". " ++ text := by
  constructor
  · intro h
    refine ⟨matchNumbered_shape h, ?_⟩
    unfold matchNumbered at h
    simp only at h
    have hsplit := takeWhile_append_dropWhile' isAsciiDigit s
    cases he : (s.takeWhile isAsciiDigit).isEmpty with
    | true => simp [he] at h
    | false =>
      simp only [he, Bool.false_eq_true, if_false] at h
      split at h
      · rename_i rest hd
        obtain rfl := Option.some.inj h
        exact ⟨rest, by rw [hd] at hsplit; simpa using hsplit.symm⟩
      · rename_i c rest hd
        split at h
        · obtain rfl := Option.some.inj h
          exact ⟨rest, by rw [hd] at hsplit; simpa using hsplit.symm⟩
        · cases h
      · rename_i c rest hd
        split at h
        · obtain rfl := Option.some.inj h
          exact ⟨rest, by rw [hd] at hsplit; simpa using hsplit.symm⟩
        · cases h
      · cases h
  · rintro ⟨hi, t, rfl⟩
    rcases hi with (hn | ⟨n, c, hn, hc, rfl⟩) | ⟨n, c, hn, hc, rfl⟩
    · obtain ⟨h1, h2⟩ := digits_split (rest := '.' :: ' ' :: t) hn.2 (by intro c h; cases h; rfl)
      unfold matchNumbered
      simp only [List.append_assoc, List.cons_append, List.nil_append, h1, h2]
      rw [if_neg (by simpa using hn.1)]
    · obtain ⟨h1, h2⟩ := digits_split (rest := c :: '.' :: ' ' :: t) hn.2
        (by intro d h; cases h; exact lower_not_ascii hc)
      unfold matchNumbered
      simp only [List.append_assoc, List.cons_append, List.nil_append, h1, h2]
      rw [if_neg (by simpa using hn.1)]
      rw [if_pos hc]
    · obtain ⟨h1, h2⟩ := digits_split (rest := '/' :: c :: '.' :: ' ' :: t) hn.2 (by intro c h; cases h; rfl)
      unfold matchNumbered
      simp only [List.append_assoc, List.cons_append, List.nil_append, h1, h2]
      rw [if_neg (by simpa using hn.1), if_pos hc]

theorem matchParagraph_iff {s i : Str} : matchParagraph s = some i ↔
    IsParagraphId i ∧ ∃ text, s = py"(" ++ i ++ py") " ++ text := by
  constructor
  · intro h
    refine ⟨matchParagraph_shape h, ?_⟩
    unfold matchParagraph at h
    split at h
    · rename_i t
      simp only at h
      have hsplit := takeWhile_append_dropWhile' isAsciiDigit t
      cases he : (t.takeWhile isAsciiDigit).isEmpty with
      | true => simp [he] at h
      | false =>
        simp only [he, Bool.false_eq_true, if_false] at h
        split at h
        · rename_i rest hd
          obtain rfl := Option.some.inj h
          exact ⟨rest, by rw [hd] at hsplit; simpa using hsplit.symm⟩
        · rename_i c rest hd
          split at h
          · obtain rfl := Option.some.inj h
            exact ⟨rest, by rw [hd] at hsplit; simpa using hsplit.symm⟩
          · cases h
        · cases h
    · cases h
  · rintro ⟨hi, t, rfl⟩
    rcases hi with hn | ⟨n, c, hn, hc, rfl⟩
    · obtain ⟨h1, h2⟩ := digits_split (rest := ')' :: ' ' :: t) hn.2 (by intro c h; cases h; rfl)
      unfold matchParagraph
      simp only [List.append_assoc, List.cons_append, List.nil_append, h1, h2]
      rw [if_neg (by simpa using hn.1)]
    · obtain ⟨h1, h2⟩ := digits_split (rest := c :: ')' :: ' ' :: t) hn.2
        (by intro d h; cases h; exact lower_not_ascii hc)
      unfold matchParagraph
      simp only [List.append_assoc, List.cons_append, List.nil_append, h1, h2]
      rw [if_neg (by simpa using hn.1)]
      rw [if_pos hc]

theorem startsWith_append_iff {s p : Str} : startsWith s p = true ↔ ∃ t, s = p ++ t := by
  unfold startsWith
  rw [List.isPrefixOf_iff_prefix]
  exact ⟨fun ⟨t, h⟩ => ⟨t, h.symm⟩, fun ⟨t, h⟩ => ⟨t, h.symm⟩⟩

theorem matchLettered_iff {p s i : Str} (hp : Letters p) : matchLettered p s = some i ↔
    ((∃ c, isLowerAz c = true ∧ i = p ++ [c]) ∨ i = py"ny" ∨ i = py"sz") ∧ ∃ text, s = i ++ py") " ++ text := by
  have pre : ∀ {c t}, (if startsWith s p then s.drop p.length else []) = c :: ')' :: ' ' :: t →
      s = (p ++ [c]) ++ py") " ++ t := by
    intro c t h
    split at h
    · rename_i hp
      obtain ⟨u, rfl⟩ := startsWith_append_iff.mp hp
      rw [List.drop_left] at h
      rw [h]; simp
    · cases h
  constructor
  · intro h
    refine ⟨matchLettered_shape h, ?_⟩
    unfold matchLettered at h
    split at h
    · rename_i c t e
      split at h
      · obtain rfl := Option.some.inj h
        exact ⟨t, pre e⟩
      · cases h
    · split at h
      · rename_i hs
        obtain rfl := Option.some.inj h
        obtain ⟨t, rfl⟩ := startsWith_append_iff.mp hs
        exact ⟨t, by simp⟩
      · split at h
        · rename_i hs
          obtain rfl := Option.some.inj h
          obtain ⟨t, rfl⟩ := startsWith_append_iff.mp hs
          exact ⟨t, by simp⟩
        · cases h
  · rintro ⟨hi, t, hs⟩
    rcases hi with ⟨c, hc, rfl⟩ | hi
    · unfold matchLettered
      have h1 : startsWith s p = true := startsWith_append_iff.mpr ⟨[c] ++ py") " ++ t, by rw [hs]; simp⟩
      have h2 : s.drop p.length = c :: ')' :: ' ' :: t := by
        rw [hs, List.append_assoc, List.append_assoc, List.drop_left]; rfl
      rw [if_pos h1, h2]
      simp only [hc, if_true]
    · unfold matchLettered
      have hshape : ∃ x y, i = [x, y] ∧ isLowerAz x = true ∧ isLowerAz y = true := by
        rcases hi with rfl | rfl
        · exact ⟨_, _, rfl, by decide, by decide⟩
        · exact ⟨_, _, rfl, by decide, by decide⟩
      split
      · rename_i c u e
        have e' := pre e
        obtain ⟨x, y, rfl, hx, hy⟩ := hshape
        rw [hs] at e'
        have hlet : ∀ c, isLowerAz c = true → c ≠ ')' ∧ c ≠ ' ' := by
          intro c h
          exact ⟨by rintro rfl; revert h; decide, by rintro rfl; revert h; decide⟩
        have hpc : p ++ [c] = [x, y] := by
          match p with
          | [] =>
            simp only [List.nil_append, List.cons_append, List.cons.injEq] at e'
            exact absurd e'.2.1 (hlet y hy).1
          | [a] =>
            simp only [List.nil_append, List.cons_append, List.cons.injEq] at e'
            rw [e'.1, e'.2.1]; rfl
          | [a, b] =>
            simp only [List.nil_append, List.cons_append, List.cons.injEq] at e'
            exact absurd e'.2.2.2.1 (by decide)
          | a :: b :: d :: f =>
            simp only [List.nil_append, List.cons_append, List.cons.injEq] at e'
            exact absurd e'.2.2.1.symm (hlet d (hp d (by simp))).1
        rw [hpc]
        have : isLowerAz c = true := by
          match p with
          | [] => simp at hpc
          | [a] =>
            simp only [List.cons_append, List.nil_append, List.cons.injEq] at hpc
            rw [hpc.2.1]; exact hy
          | a :: b :: d => simp at hpc
        rw [if_pos this]
      · rcases hi with rfl | rfl
        · rw [if_pos (startsWith_append_iff.mpr ⟨t, by rw [hs]; simp⟩)]
        · have : startsWith s (py"ny) ") = false := by
            rw [hs]; rfl
          rw [this]
          rw [if_neg (by simp), if_pos (startsWith_append_iff.mpr ⟨t, by rw [hs]; simp⟩)]

theorem letter_self (c : Char) : isNextLetterHun [c] [c] = false := by
  unfold isNextLetterHun
  have h : specialNextLetterPairs.contains ([c], [c]) = false := by
    rw [List.contains_eq_mem, decide_eq_false_iff_not]
    intro h
    have table : ∀ p ∈ specialNextLetterPairs, p.1 ≠ p.2 := by decide
    exact table _ h rfl
  rw [h]
  simp

theorem subpoint_after_iff {p s t a b : Str} {r : Bool} (hp : SubPrefix p) (ha : matchLettered p s = some a)
    (hb : matchLettered p t = some b) (h : alphabeticSubpointIsNext a b = .ok r) : r = true ↔ SubletterAfter p a b := by
  have la := matchLettered_letters hp.letters ha
  have lb := matchLettered_letters hp.letters hb
  have one : ∀ c, isLowerAz c = true → Letters [c] := fun c hc x hx => by rw [List.mem_singleton.mp hx]; exact hc
  have no : ∀ {a b : Str}, (∀ c, a ≠ p ++ [c]) → ¬ SubletterAfter p a b := by
    rintro a b hn ⟨c, y, rfl, _⟩
    exact hn c rfl
  rcases hp with rfl | ⟨u, hu, rfl⟩ | rfl | rfl
  · -- letters without prefix
    rcases matchLettered_shape ha with ⟨c, hc, rfl⟩ | rfl | rfl
    · simp only [List.nil_append, alphabeticSubpointIsNext, Except.ok.injEq] at h
      rw [← h, letter_after_iff (one c hc) lb]
      constructor
      · intro h'
        exact ⟨c, b, rfl, rfl, h', fun h => absurd rfl h⟩
      · rintro ⟨d, y, h1, h2, h3, _⟩
        simp only [List.nil_append, List.cons.injEq, and_true] at h1 h2
        subst h1; subst h2
        exact h3
    · refine ⟨fun hr => ?_, fun hs => absurd hs (no (by simp))⟩
      subst hr
      exfalso
      rcases matchLettered_shape hb with ⟨c, hc, rfl⟩ | rfl | rfl
      · simp only [alphabeticSubpointIsNext, List.nil_append] at h
        split at h <;> cases h
      · revert h; decide
      · revert h; decide
    · refine ⟨fun hr => ?_, fun hs => absurd hs (no (by simp))⟩
      subst hr
      exfalso
      rcases matchLettered_shape hb with ⟨c, hc, rfl⟩ | rfl | rfl
      · simp only [alphabeticSubpointIsNext, List.nil_append] at h
        split at h <;> cases h
      · revert h; decide
      · revert h; decide
  · -- one letter as prefix
    have two : ∀ {s a}, matchLettered [u] s = some a → ∃ x y, a = [x, y] ∧ isLowerAz x = true ∧ isLowerAz y = true := by
      intro s a ha
      rcases matchLettered_shape ha with ⟨c, hc, rfl⟩ | rfl | rfl
      · exact ⟨u, c, rfl, hu, hc⟩
      · exact ⟨_, _, rfl, by decide, by decide⟩
      · exact ⟨_, _, rfl, by decide, by decide⟩
    obtain ⟨x, y, rfl, hx, hy⟩ := two ha
    obtain ⟨z, w, rfl, hz, hw⟩ := two hb
    simp only [alphabeticSubpointIsNext] at h
    by_cases hxz : x = z
    · subst hxz
      rw [if_pos rfl] at h
      obtain rfl := Except.ok.inj h
      rw [letter_after_iff (one y hy) (one w hw)]
      by_cases hxu : x = u
      · subst hxu
        constructor
        · intro h'
          exact ⟨y, [w], rfl, rfl, h', fun _ => rfl⟩
        · rintro ⟨c, v, h1, h2, h3, _⟩
          simp only [List.cons_append, List.nil_append, List.cons.injEq, true_and, and_true] at h1 h2
          subst h1; subst h2
          exact h3
      · -- both are the same digraph
        have same : ∀ {s y}, matchLettered [u] s = some [x, y] → (x = 'n' ∧ y = 'y') ∨ (x = 's' ∧ y = 'z') := by
          intro s y h
          rcases matchLettered_shape h with ⟨c, hc, e⟩ | e | e
          · simp only [List.cons_append, List.nil_append, List.cons.injEq] at e
            exact absurd e.1 hxu
          · simp only [List.cons.injEq, and_true] at e; exact .inl e
          · simp only [List.cons.injEq, and_true] at e; exact .inr e
        have hyw : y = w := by
          rcases same ha with ⟨e1, e2⟩ | ⟨e1, e2⟩ <;> rcases same hb with ⟨e3, e4⟩ | ⟨e3, e4⟩
          · rw [e2, e4]
          · rw [e1] at e3; exact absurd e3 (by decide)
          · rw [e1] at e3; exact absurd e3 (by decide)
          · rw [e2, e4]
        subst hyw
        rw [← letter_after_iff (one y hy) (one y hy), letter_self]
        refine ⟨fun h => (nomatch h), ?_⟩
        rintro ⟨c, v, h1, _⟩
        simp only [List.cons_append, List.nil_append, List.cons.injEq] at h1
        exact absurd h1.1 hxu
    · rw [if_neg hxz] at h
      obtain rfl := Except.ok.inj h
      refine ⟨fun h => (nomatch h), ?_⟩
      rintro ⟨c, v, h1, h2, _⟩
      simp only [List.cons_append, List.nil_append, List.cons.injEq] at h1 h2
      exact absurd (h1.1.trans h2.1.symm) hxz
  · -- a digraph as prefix: nothing comes next
    have hcase : a = py"ny" ∨ a = py"sz" := by
      rcases matchLettered_shape ha with ⟨c, hc, rfl⟩ | h' | h'
      · simp [alphabeticSubpointIsNext] at h
      · exact .inl h'
      · exact .inr h'
    refine ⟨fun hr => ?_, fun hs => absurd hs (no (by rcases hcase with rfl | rfl <;> simp))⟩
    subst hr
    exfalso
    rcases hcase with rfl | rfl <;> rcases matchLettered_shape hb with ⟨c, hc, rfl⟩ | rfl | rfl <;>
      first
        | (revert h; decide)
        | (simp only [alphabeticSubpointIsNext, List.cons_append, List.nil_append] at h; clear hb hc lb; revert h; decide)
  · have hcase : a = py"ny" ∨ a = py"sz" := by
      rcases matchLettered_shape ha with ⟨c, hc, rfl⟩ | h' | h'
      · simp [alphabeticSubpointIsNext] at h
      · exact .inl h'
      · exact .inr h'
    refine ⟨fun hr => ?_, fun hs => absurd hs (no (by rcases hcase with rfl | rfl <;> simp))⟩
    subst hr
    exfalso
    rcases hcase with rfl | rfl <;> rcases matchLettered_shape hb with ⟨c, hc, rfl⟩ | rfl | rfl <;>
      first
        | (revert h; decide)
        | (simp only [alphabeticSubpointIsNext, List.cons_append, List.nil_append] at h; clear hb hc lb; revert h; decide)

/-- What a parser class looks for. -/
structure ElementParser.Looks (P : ElementParser) (heading : Str → Str → Prop) (after : Str → Str → Prop) : Prop where
  header : ∀ {s i}, P.header s = some i ↔ heading s i
  next : ∀ {s t a b r}, P.header s = some a → P.header t = some b → P.kind.isNextIdentifier a b = .ok r →
    (r = true ↔ after a b)

theorem ok_true_iff {x : Res Bool} {r : Bool} {p : Prop} (h : x = .ok r) (hp : x = .ok true ↔ p) : r = true ↔ p := by
  rw [← hp, h]
  cases r <;> simp

theorem paragraph_looks : paragraphParser.Looks (ElementHeading .paragraph []) (ElementAfter .paragraph []) where
  header := matchParagraph_iff
  next := fun ha hb h =>
    ok_true_iff h (numeric_after_iff (.inl (matchParagraph_shape ha)) (.inl (matchParagraph_shape hb)))

theorem numericPoint_looks : numericPointParser.Looks (ElementHeading .numericPoint []) (ElementAfter .numericPoint []) where
  header := matchNumbered_iff
  next := fun ha hb h => ok_true_iff h (numeric_after_iff (matchNumbered_shape ha) (matchNumbered_shape hb))

theorem numericSubpoint_looks :
    numericSubpointParser.Looks (ElementHeading .numericSubpoint []) (ElementAfter .numericSubpoint []) where
  header := matchNumbered_iff
  next := fun ha hb h => ok_true_iff h (numeric_after_iff (matchNumbered_shape ha) (matchNumbered_shape hb))

theorem alphabeticPoint_looks :
    alphabeticPointParser.Looks (ElementHeading .alphabeticPoint []) (ElementAfter .alphabeticPoint []) where
  header := matchLettered_iff (by simp [Letters])
  next := fun {s t a b r} ha hb h => by
    have h : isNextLetterHun a b = r := by simpa [alphabeticPointParser, SaeKind.isNextIdentifier] using h
    rw [← h]
    exact letter_after_iff (matchLettered_letters (by simp [Letters]) ha) (matchLettered_letters (by simp [Letters]) hb)

theorem alphabeticSubpoint_looks {p : Str} (hp : SubPrefix p) :
    (alphabeticSubpointParser p).Looks (ElementHeading .alphabeticSubpoint p) (ElementAfter .alphabeticSubpoint p) where
  header := matchLettered_iff hp.letters
  next := fun ha hb h => subpoint_after_iff hp ha hb h

theorem siblings_loop {P : ElementParser} {heading : Str → Str → Prop} {after : Str → Str → Prop}
    (hP : P.Looks heading after) (full ls : List Line) : ∀ (seen : List Line) (last : Option (Str × Rat)),
    full = seen ++ ls → (∀ l, last = some l → ∃ s, P.header s = some l.1) →
    (quoteLevelLoop true (openQuotes seen) ls).stop = none →
    (headerLoop P last seen.length (quoteLevelLoop true (openQuotes seen) ls).yields).stop = none →
    ∃ ids, Siblings heading P.first after last seen ls ids ∧
      (headerLoop P last seen.length (quoteLevelLoop true (openQuotes seen) ls).yields).yields.map
        (fun k => full[k]?.bind fun l => P.header l.content) = ids.map some := by
  induction ls with
  | nil =>
    intro seen last hfull hlast h1 h2
    exact ⟨[], .done _ _, rfl⟩
  | cons l ls ih =>
    intro seen last hfull hlast h1 h2
    simp only [quoteLevelLoop] at h1 h2 ⊢
    by_cases hneg : openQuotes seen + quoteLevelDiff l.content < 0
    · simp [hneg] at h1
    · simp only [hneg, decide_false, Bool.and_false, Bool.false_eq_true, if_false] at h1 h2 ⊢
      have hlev : openQuotes seen + quoteLevelDiff l.content = openQuotes (seen ++ [l]) := by
        rw [openQuotes_append, openQuotes_one]
      have hlen : seen.length + 1 = (seen ++ [l]).length := by simp
      rw [hlev] at h1 h2 ⊢
      have hfull' : full = (seen ++ [l]) ++ ls := by rw [hfull]; simp
      rw [headerLoop] at h2 ⊢
      have hind : (last.any fun l' => !similarIndent l'.2 l.indent && decide (l.indent > l'.2)) = true ↔
          ¬ ∀ l', last = some l' → l.indent < l'.2 + 1 := by
        cases last with
        | none => simp
        | some l' =>
          have : similarIndent l'.2 l.indent = true ↔ _ := similar_iff
          simp only [Option.any_some, Bool.and_eq_true, Bool.not_eq_true', decide_eq_true_eq, Option.some.injEq,
            forall_eq']
          rw [← Bool.not_eq_true, this]
          grind
      by_cases hq : openQuotes seen ≠ 0
      · rw [if_pos hq, hlen] at h2 ⊢
        obtain ⟨ids, e1, e2⟩ := ih _ _ hfull' hlast h1 h2
        exact ⟨ids, .continues (fun h => hq h.1) e1, e2⟩
      · rw [if_neg hq] at h2 ⊢
        by_cases hi : (last.any fun l' => !similarIndent l'.2 l.indent && decide (l.indent > l'.2)) = true
        · rw [if_pos hi, hlen] at h2 ⊢
          obtain ⟨ids, e1, e2⟩ := ih _ _ hfull' hlast h1 h2
          exact ⟨ids, .continues (fun h => hind.mp hi h.2.1) e1, e2⟩
        · rw [if_neg hi] at h2 ⊢
          cases hh : P.header l.content with
          | none =>
            simp only [hh, hlen] at h2 ⊢
            obtain ⟨ids, e1, e2⟩ := ih _ _ hfull' hlast h1 h2
            refine ⟨ids, .continues (fun h => ?_) e1, e2⟩
            obtain ⟨_, _, i, h, _⟩ := h
            rw [hP.header.mpr h] at hh
            cases hh
          | some i =>
            simp only [hh] at h2 ⊢
            cases hx : P.accepts last i with
            | error e => simp [hx] at h2
            | ok b =>
              have hb : b = true ↔ NextSibling P.first after last i := by
                unfold NextSibling
                cases last with
                | none =>
                  simp only [ElementParser.accepts, Except.ok.injEq] at hx
                  rw [← hx]
                  simp
                | some l' =>
                  obtain ⟨s, hs⟩ := hlast l' rfl
                  exact hP.next hs hh hx
              cases b with
              | false =>
                simp only [hx, hlen] at h2 ⊢
                obtain ⟨ids, e1, e2⟩ := ih _ _ hfull' hlast h1 h2
                refine ⟨ids, .continues (fun h => ?_) e1, e2⟩
                obtain ⟨_, _, j, h, hn⟩ := h
                rw [hP.header.mpr h] at hh
                obtain rfl := Option.some.inj hh
                exact absurd (hb.mpr hn) (by decide)
              | true =>
                simp only [hx, hlen] at h2 ⊢
                obtain ⟨ids, e1, e2⟩ := ih _ (some (i, l.indent)) hfull'
                  (by intro l' h; cases h; exact ⟨_, hh⟩) h1 h2
                refine ⟨i :: ids, .begins (by simpa using hq) ?_ (hP.header.mp hh) (hb.mp rfl) e1, ?_⟩
                · exact Classical.byContradiction fun h => hi (hind.mpr h)
                · rw [List.map_cons, List.map_cons, e2, hfull]
                  simp [hh]

theorem findHeaderLines_siblings {P : ElementParser} {heading : Str → Str → Prop} {after : Str → Str → Prop}
    (hP : P.Looks heading after) {lines : List Line} {hs : List Nat} (h : (findHeaderLines P lines).toList = .ok hs) :
    ∃ ids, Siblings heading P.first after none [] lines ids ∧
      hs.map (fun k => lines[k]?.bind fun l => P.header l.content) = ids.map some := by
  unfold findHeaderLines iterateWithQuoteLevel Gen.toList at h
  simp only at h
  cases h1 : (headerLoop P none 0 (quoteLevelLoop true 0 lines).yields).stop with
  | some e => simp [h1] at h
  | none =>
    cases h2 : (quoteLevelLoop true 0 lines).stop with
    | some e => simp [h1, h2] at h
    | none =>
      simp only [h1, h2, Option.or_none] at h
      obtain rfl := Except.ok.inj h
      exact siblings_loop hP lines lines [] none rfl (by simp) h2 h1

theorem parseElement_identifier {P : ElementParser} {kids : ChildReader} {ls : List Line} {pi : Bool} {n : Node}
    (h : parseElement P kids ls pi = .ok n) : n.identifier = blockId P ls := by
  cases ls with
  | nil => simp [parseElement] at h
  | cons first rest =>
    simp only [parseElement] at h
    obtain ⟨p, hp, h⟩ := resBind_ok h
    cases hs : startsWith first.content p with
    | false => simp [hs] at h
    | true =>
      simp only [hs, Bool.not_true, Bool.false_eq_true, if_false] at h
      obtain ⟨first', hf, h⟩ := resBind_ok h
      cases hr : kids (first' :: rest) (P.header first.content) pi with
      | ok r =>
        obtain ⟨intro, cs, w⟩ := r
        simp only [hr] at h
        obtain ⟨rfl, _⟩ := mkSae_ok h
        rfl
      | error e =>
        have : mkSae P.kind { identifier := P.header first.content, text := some (joinLines (first' :: rest)) } none =
            .ok n := by
          simp only [hr] at h
          cases e <;> first | exact h | cases h
        obtain ⟨rfl, _⟩ := mkSae_ok this
        rfl

theorem both_identifiers {P : ElementParser} {kids : ChildReader} {pi : Bool} {bs : List (List Line)} {es : List Node}
    (h : Both (fun ls e => parseElement P kids ls pi = .ok e) bs es) :
    es.map Node.identifier = bs.map (blockId P) := by
  induction h with
  | nil => rfl
  | cons h _ ih => rw [List.map_cons, List.map_cons, parseElement_identifier h, ih]

theorem offsets_ids {P : ElementParser} (bs : List (List Line)) : ∀ (pre : List Line), (∀ b ∈ bs, b ≠ []) →
    (offsets pre.length bs).map (fun k => (pre ++ bs.flatten)[k]?.bind fun l => P.header l.content) =
      bs.map (blockId P) := by
  induction bs with
  | nil => intro pre _; rfl
  | cons b bs ih =>
    intro pre hne
    have hb := hne b (by simp)
    have hlen : pre.length + b.length = (pre ++ b).length := by simp
    have := ih (pre ++ b) fun c hc => hne c (by simp [hc])
    simp only [offsets, List.map_cons, hlen, List.flatten_cons]
    rw [List.append_assoc] at this
    rw [this]
    congr 1
    rw [List.getElem?_append_right (Nat.le_refl _), Nat.sub_self]
    cases b with
    | nil => exact absurd rfl hb
    | cons l ls => rfl

theorem extractMultiple_siblings {P : ElementParser} {heading : Str → Str → Prop} {after : Str → Str → Prop}
    (hP : P.Looks heading after) (hv : P.Visible) {kids : ChildReader} {lines : List Line} {pi : Bool}
    {nodes : List Node} {w : Option Str} (h : extractMultiple P kids lines pi = .ok (nodes, w)) :
    ∃ ids, nodes.map Node.identifier = ids.map some ∧ Siblings heading P.first after none [] lines ids := by
  unfold extractMultiple at h
  obtain ⟨hs, hf, h⟩ := resBind_ok h
  obtain ⟨ids, hids, hmap⟩ := findHeaderLines_siblings hP hf
  obtain ⟨h0, pre, bs, e1, rfl, hh⟩ := findHeaderLines_spec hf
  refine ⟨ids, ?_, hids⟩
  have hne : ∀ b ∈ bs, b ≠ [] := by
    intro b hb e
    obtain ⟨l, i, hl, _⟩ := hh.heads b hb
    rw [e] at hl
    cases hl
  rw [e1, offsets_ids bs pre hne] at hmap
  rw [← hmap]
  cases bs with
  | nil => simp [offsets] at h
  | cons b bs =>
    simp only [offsets] at h
    by_cases hp : pre.length ≠ 0
    · rw [if_pos hp] at h; cases h
    · rw [if_neg hp] at h
      obtain rfl : pre = [] := by
        cases pre with
        | nil => rfl
        | cons => simp at hp
      by_cases h1 : (lines.head?.bind fun l => P.header l.content) ≠ some P.first
      · rw [if_pos h1] at h; cases h
      · rw [if_neg h1] at h
        by_cases h2 : ((offsets (([] : List Line).length + b.length) bs).isEmpty && P.mustHaveMultiple) = true
        · rw [if_pos h2] at h; cases h
        · rw [if_neg h2] at h
          obtain ⟨⟨es, last⟩, hb, h⟩ := resBind_ok h
          obtain ⟨⟨rem, w'⟩, hw, h⟩ := resBind_ok h
          obtain ⟨e, he, h⟩ := resBind_ok h
          simp only [Except.ok.injEq, Prod.mk.injEq] at h
          obtain ⟨rfl, rfl⟩ := h
          obtain ⟨init, end', d1, d2, d3⟩ := parseBetween_spec _ lines [] bs b es last (by rw [e1]; simp) hb
          obtain ⟨wl, w1, w2, w3, w4⟩ := splitWrapUp_spec hw
          rw [d3] at w4
          rw [d1] at hh ⊢
          rw [openQuotes_nil] at hh
          obtain ⟨l, i, hl, hi⟩ := hh.last_header
          have hne : l.isEmptyLine = false := by
            apply nonempty_of_content
            intro e
            rw [e, hv] at hi
            cases hi
          have hrem := w4 l hl hne
          rw [List.map_append, List.map_append, both_identifiers d2, List.map_singleton, List.map_singleton,
            parseElement_identifier he]
          simp [blockId, hrem, hl]

/-! ## Amendments -/

theorem colon_unique {p q x y : Str} (hp : IsNumber p) (hq : IsNumber q) (h : p ++ ':' :: x = q ++ ':' :: y) :
    p = q ∧ x = y := by
  have take : ∀ {p x : Str}, IsNumber p → (p ++ ':' :: x).takeWhile isAsciiDigit = p := by
    intro p x hp
    exact (digits_split (rest := ':' :: x) hp.2 (by intro c h; cases h; rfl)).1
  have : p = q := by rw [← take hp (x := x), h, take hq]
  subst this
  have := List.append_cancel_left h
  exact ⟨rfl, (List.cons.inj this).2⟩

theorem articleTail_next_iff {a b : Str} (ha : IsArticleTail a) (hb : IsArticleTail b) :
    articleIsNextTail a b = .ok true ↔ CapitalNumberAfter a b := by
  have sp : ∀ {D c}, IsNumber D → isUpperAz c = true → splitTwo '/' (D ++ ['/', c]) = .ok (D, [c]) := by
    intro D c hD hc
    have hne : '/' ∉ [c] := by simpa using upper_ne hc (by decide)
    unfold splitTwo
    rw [splitOn_append '/' D [c] (isNumber_no_slash hD), splitOn_not_mem '/' [c] hne]
  have filter : ∀ {D c}, IsNumber D → isUpperAz c = true → (D ++ ['/', c]).filter (· ≠ '/') = D ++ [c] := by
    intro D c hD hc
    have : c ≠ '/' := by rintro rfl; revert hc; decide
    rw [List.filter_append, filter_slash_number hD]
    simp [this]
  have slash : ∀ {D : Str} {c : Char}, (D ++ ['/', c]).contains '/' = true := by simp
  rw [← capital_after_iff ha hb]
  rcases ha with h1 | ⟨D1, c1, h1, hc1, rfl⟩ <;> rcases hb with h2 | ⟨D2, c2, h2, hc2, rfl⟩
  · rw [numericNext_iff (r1 := []) (r2 := []) h1 h2 (by rw [filter_slash_number h1]; simp)
      (by rw [filter_slash_number h2]; simp) (.inl rfl) (.inl rfl)]
    unfold articleIsNextTail
    simp only [contains_false_of_not_mem (isNumber_no_slash h1), contains_false_of_not_mem (isNumber_no_slash h2),
      pyInt_value h1, pyInt_value h2, bind, Except.bind]
    simp
    omega
  · rw [numericNext_iff (r1 := []) (r2 := [c2]) h1 h2 (by rw [filter_slash_number h1]; simp) (filter h2 hc2) (.inl rfl)
      (.inr ⟨c2, upper_not_digit hc2, rfl⟩)]
    unfold articleIsNextTail
    simp only [contains_false_of_not_mem (isNumber_no_slash h1), slash]
    have key : a ++ ['/', 'A'] = D2 ++ ['/', c2] ↔ a = D2 ∧ c2 = 'A' := by
      constructor
      · intro h
        obtain ⟨e1, e2⟩ := List.append_inj' h rfl
        simp only [List.cons.injEq, and_true, true_and] at e2
        exact ⟨e1, e2.symm⟩
      · rintro ⟨rfl, rfl⟩; rfl
    have ha : c2 ≠ 'a' := by rintro rfl; revert hc2; decide
    simp [key, ha]
  · rw [numericNext_iff (r1 := [c1]) (r2 := []) h1 h2 (filter h1 hc1) (by rw [filter_slash_number h2]; simp)
      (.inr ⟨c1, upper_not_digit hc1, rfl⟩) (.inl rfl)]
    unfold articleIsNextTail
    simp only [contains_false_of_not_mem (isNumber_no_slash h2), slash, sp h1 hc1, pyInt_value h1, pyInt_value h2, bind,
      Except.bind]
    simp
    omega
  · rw [numericNext_iff (r1 := [c1]) (r2 := [c2]) h1 h2 (filter h1 hc1) (filter h2 hc2)
      (.inr ⟨c1, upper_not_digit hc1, rfl⟩) (.inr ⟨c2, upper_not_digit hc2, rfl⟩)]
    unfold articleIsNextTail
    simp only [slash, sp h1 hc1, sp h2 hc2, bind, Except.bind]
    simp

theorem article_after_iff {a b : Str} (ha : IsArticleId a) (hb : IsArticleId b) :
    articleIsNext a b = .ok true ↔ ArticleAfter a b := by
  have sp : ∀ {B t}, IsNumber B → IsArticleTail t → splitTwo ':' (B ++ ':' :: t) = .ok (B, t) := by
    intro B t hB ht
    unfold splitTwo
    rw [splitOn_append ':' B t (isNumber_no_colon hB), splitOn_not_mem ':' t (article_tail_no_colon ht)]
  have colon : ∀ {B t : Str}, (B ++ ':' :: t).contains ':' = true := by simp
  unfold articleIsNext ArticleAfter
  rcases ha with ha | ⟨B1, t1, hB1, ht1, rfl⟩ <;> rcases hb with hb | ⟨B2, t2, hB2, ht2, rfl⟩
  · have na := article_tail_no_colon ha
    have nb := article_tail_no_colon hb
    simp only [contains_false_of_not_mem na, contains_false_of_not_mem nb, bne_self_eq_false, Bool.false_eq_true,
      if_false]
    rw [articleTail_next_iff ha hb]
    constructor
    · intro h; exact .inl ⟨na, nb, h⟩
    · rintro (h | ⟨p, x, q, y, _, _, h, _⟩)
      · exact h.2.2
      · rw [h] at na; simp at na
  · have na := article_tail_no_colon ha
    simp only [contains_false_of_not_mem na, colon]
    simp only [Bool.bne_true, Bool.not_false, if_true, Except.ok.injEq, Bool.false_eq_true, false_iff]
    rintro (h | ⟨p, x, q, y, _, _, h, _⟩)
    · exact h.2.1 (by simp)
    · rw [h] at na; simp at na
  · have nb := article_tail_no_colon hb
    simp only [contains_false_of_not_mem nb, colon]
    simp only [Bool.bne_false, if_true, Except.ok.injEq, Bool.false_eq_true, false_iff]
    rintro (h | ⟨p, x, q, y, _, _, _, h, _⟩)
    · exact h.1 (by simp)
    · rw [h] at nb; simp at nb
  · simp only [colon, sp hB1 ht1, sp hB2 ht2, bind, Except.bind, bne_self_eq_false, Bool.false_eq_true, if_false, if_true]
    by_cases hB : B1 = B2
    · subst hB
      simp only [ne_eq, not_true, if_false]
      rw [articleTail_next_iff ht1 ht2]
      constructor
      · intro h
        exact .inr ⟨_, _, _, _, hB1, hB1, rfl, rfl, .inl ⟨rfl, h⟩⟩
      · rintro (h | ⟨p, x, q, y, hp, hq, h1, h2, h⟩)
        · exact absurd h.1 (by simp)
        · obtain ⟨rfl, rfl⟩ := colon_unique hB1 hp h1
          obtain ⟨rfl, rfl⟩ := colon_unique hB1 hq h2
          rcases h with h | h
          · exact h.2
          · omega
    · simp only [ne_eq, hB, not_false_eq_true, if_true, pyInt_value hB1, pyInt_value hB2]
      constructor
      · intro h
        have h : ((numberValue B1 : Int) + 1 == numberValue B2 && t2 == ['1']) = true := by simpa using h
        simp only [Bool.and_eq_true, beq_iff_eq] at h
        exact .inr ⟨_, _, _, _, hB1, hB2, rfl, rfl, .inr ⟨by omega, h.2⟩⟩
      · rintro (h | ⟨p, x, q, y, hp, hq, h1, h2, h⟩)
        · exact absurd h.1 (by simp)
        · obtain ⟨rfl, rfl⟩ := colon_unique hB1 hp h1
          obtain ⟨rfl, rfl⟩ := colon_unique hB2 hq h2
          rcases h with h | ⟨h3, h4⟩
          · exact absurd h.1 hB
          · have : (numberValue B1 : Int) + 1 = numberValue B2 := by omega
            simp [this, h4]

theorem articleTail_total {a b : Str} (ha : IsArticleTail a) (hb : IsArticleTail b) : ∃ r, articleIsNextTail a b = .ok r := by
  have sp : ∀ {D c}, IsNumber D → isUpperAz c = true → splitTwo '/' (D ++ ['/', c]) = .ok (D, [c]) := by
    intro D c hD hc
    have hne : '/' ∉ [c] := by simpa using upper_ne hc (by decide)
    unfold splitTwo
    rw [splitOn_append '/' D [c] (isNumber_no_slash hD), splitOn_not_mem '/' [c] hne]
  have slash : ∀ {D : Str} {c : Char}, (D ++ ['/', c]).contains '/' = true := by simp
  unfold articleIsNextTail
  rcases ha with h1 | ⟨D1, c1, h1, hc1, rfl⟩ <;> rcases hb with h2 | ⟨D2, c2, h2, hc2, rfl⟩
  · simp only [contains_false_of_not_mem (isNumber_no_slash h1), contains_false_of_not_mem (isNumber_no_slash h2),
      pyInt_value h1, pyInt_value h2, bind, Except.bind]
    exact ⟨_, rfl⟩
  · simp only [contains_false_of_not_mem (isNumber_no_slash h1), slash]
    exact ⟨_, rfl⟩
  · simp only [contains_false_of_not_mem (isNumber_no_slash h2), slash, sp h1 hc1, pyInt_value h1, pyInt_value h2, bind, Except.bind]
    exact ⟨_, rfl⟩
  · simp only [slash, sp h1 hc1, sp h2 hc2, bind, Except.bind]
    exact ⟨_, rfl⟩

theorem article_total {a b : Str} (ha : IsArticleId a) (hb : IsArticleId b) : ∃ r, articleIsNext a b = .ok r := by
  have sp : ∀ {B t}, IsNumber B → IsArticleTail t → splitTwo ':' (B ++ ':' :: t) = .ok (B, t) := by
    intro B t hB ht
    unfold splitTwo
    rw [splitOn_append ':' B t (isNumber_no_colon hB), splitOn_not_mem ':' t (article_tail_no_colon ht)]
  have colon : ∀ {B t : Str}, (B ++ ':' :: t).contains ':' = true := by simp
  unfold articleIsNext
  rcases ha with ha | ⟨B1, t1, hB1, ht1, rfl⟩ <;> rcases hb with hb | ⟨B2, t2, hB2, ht2, rfl⟩
  · simp only [contains_false_of_not_mem (article_tail_no_colon ha), contains_false_of_not_mem (article_tail_no_colon hb), bne_self_eq_false,
      Bool.false_eq_true, if_false]
    exact articleTail_total ha hb
  · simp only [contains_false_of_not_mem (article_tail_no_colon ha), colon]
    exact ⟨_, rfl⟩
  · simp only [contains_false_of_not_mem (article_tail_no_colon hb), colon]
    exact ⟨_, rfl⟩
  · simp only [colon, sp hB1 ht1, sp hB2 ht2, bind, Except.bind, bne_self_eq_false, Bool.false_eq_true, if_false, if_true]
    split
    · simp only [pyInt_value hB1, pyInt_value hB2]
      exact ⟨_, rfl⟩
    · exact articleTail_total ht1 ht2

/-- What a parser looks for in an amendment. -/
structure BlockParser.Looks (P : BlockParser) (heading : Str → Str → Prop) (after : Str → Str → Prop) : Prop where
  header : ∀ {s i}, P.header s = some i ↔ heading s i
  next : ∀ {s t a b r}, P.header s = some a → P.header t = some b → P.isNext a b = .ok r → (r = true ↔ after a b)
  named : ∀ {l ls n}, P.parse (l :: ls) = .ok n → ∀ i, P.header l.content = some i → n.identifier = some i
  nonempty : ∀ n, P.parse [] ≠ .ok n

theorem asBlock_looks {P : ElementParser} {heading after : Str → Str → Prop} (hP : P.Looks heading after)
    (kids : ChildReader) : (P.asBlock kids).Looks heading after where
  header := hP.header
  next := hP.next
  named := fun {l ls n} h i hi => by
    have h : parseElement P kids (l :: ls) false = .ok n := h
    rw [parseElement_identifier h]
    exact hi
  nonempty := fun n h => by cases h

theorem articleBlock_looks : articleBlockParser.Looks ArticleHeading ArticleAfter where
  header := matchArticle_iff
  next := fun ha hb h => ok_true_iff h (article_after_iff (matchArticle_iff.mp ha).1 (matchArticle_iff.mp hb).1)
  named := fun {l ls n} h i hi => by
    have := article_names hi h
    cases n with
    | article j => exact congrArg some (Eq.symm this)
    | _ => cases this
  nonempty := fun n h => by cases h

theorem followers_loop {P : BlockParser} {heading after : Str → Str → Prop} (hP : P.Looks heading after)
    (ls : List Line) : ∀ (seen : List Line) (last : Str) (l0 : Line) (more : List Line) (done out : List Node)
    (left : List Line) (e : Node),
    (∃ s, P.header s = some last) → (quoteLevelLoop true (openQuotes seen) ls).stop = none →
    blockLoop P last (l0 :: more) done (quoteLevelLoop true (openQuotes seen) ls).yields = .ok (out, left) →
    P.parse left = .ok e →
    ∃ ids n ns, out ++ [e] = done ++ n :: ns ∧ (∃ more, P.parse (l0 :: more) = .ok n) ∧
      ns.map Node.identifier = ids.map some ∧ Followers heading after last seen ls ids := by
  induction ls with
  | nil =>
    intro seen last l0 more done out left e hlast h0 h he
    simp only [quoteLevelLoop, blockLoop] at h
    obtain ⟨rfl, rfl⟩ := Prod.mk.inj (Except.ok.inj h)
    exact ⟨[], e, [], rfl, ⟨more, he⟩, rfl, .done _ _⟩
  | cons l ls ih =>
    intro seen last l0 more done out left e hlast h0 h he
    simp only [quoteLevelLoop] at h0 h
    by_cases hneg : openQuotes seen + quoteLevelDiff l.content < 0
    · simp [hneg] at h0
    · simp only [hneg, decide_false, Bool.and_false, Bool.false_eq_true, if_false] at h0 h
      have hlev : openQuotes seen + quoteLevelDiff l.content = openQuotes (seen ++ [l]) := by
        rw [openQuotes_append, openQuotes_one]
      rw [hlev] at h0 h
      rw [blockLoop] at h
      obtain ⟨found, hf, h⟩ := resBind_ok h
      unfold blockHeader at hf
      have skip : found = none → ¬ (openQuotes seen = 0 ∧ ∃ i, heading l.content i ∧ after last i) →
          ∃ ids n ns, out ++ [e] = done ++ n :: ns ∧ (∃ more, P.parse (l0 :: more) = .ok n) ∧
            ns.map Node.identifier = ids.map some ∧ Followers heading after last seen (l :: ls) ids := by
        rintro rfl hno
        obtain ⟨ids, n, ns, h1, h2, h3, h4⟩ := ih (seen ++ [l]) last l0 (more ++ [l]) done out left e hlast h0 h he
        exact ⟨ids, n, ns, h1, h2, h3, .continues hno h4⟩
      cases hp : P.header l.content with
      | none =>
        rw [hp] at hf
        refine skip (Except.ok.inj hf).symm ?_
        rintro ⟨_, i, hi, _⟩
        rw [hP.header.mpr hi] at hp
        cases hp
      | some i =>
        rw [hp] at hf
        simp only [List.isEmpty_cons, Bool.false_or, decide_eq_true_eq] at hf
        by_cases hq : openQuotes seen ≠ 0
        · rw [if_pos hq] at hf
          exact skip (Except.ok.inj hf).symm fun h => hq h.1
        · rw [if_neg hq] at hf
          obtain ⟨r, hr, hf⟩ := resBind_ok hf
          obtain ⟨s, hs⟩ := hlast
          have hnext := hP.next hs hp hr
          cases r with
          | false =>
            refine skip (Except.ok.inj hf).symm ?_
            rintro ⟨_, j, hj, hn⟩
            rw [hP.header.mpr hj] at hp
            obtain rfl := Option.some.inj hp
            exact absurd (hnext.mpr hn) (by decide)
          | true =>
            obtain rfl := Except.ok.inj hf
            simp only at h
            obtain ⟨n, hn, h⟩ := resBind_ok h
            obtain ⟨ids, n2, ns, h1, ⟨more2, h2⟩, h3, h4⟩ := ih (seen ++ [l]) i l [] (done ++ [n]) out left e ⟨_, hp⟩ h0 h he
            refine ⟨i :: ids, n, n2 :: ns, by rw [h1]; simp, ⟨more, hn⟩, ?_, .begins (by simpa using hq) (hP.header.mp hp) (hnext.mp rfl) h4⟩
            rw [List.map_cons, List.map_cons, h3, hP.named h2 i hp]

theorem parseBlocks_followers {P : BlockParser} {heading after : Str → Str → Prop} (hP : P.Looks heading after)
    {expected : Str} (hid : ∃ s, heading s expected) {lines : List Line} {es : List Node}
    (h : parseBlocks P expected lines = .ok es) :
    ∃ l rest e more ids, lines = l :: rest ∧ es = e :: more ∧
      (∀ i, heading l.content i → e.identifier = some i) ∧ more.map Node.identifier = ids.map some ∧
      Followers heading after expected [l] rest ids := by
  unfold parseBlocks at h
  simp only [iterateWithQuoteLevel] at h
  obtain ⟨⟨done, current⟩, hl, h⟩ := resBind_ok h
  simp only at h
  cases hs : (quoteLevelLoop true 0 lines).stop with
  | some e => rw [hs] at h; cases h
  | none =>
    rw [hs] at h
    simp only at h
    obtain ⟨e, he, h⟩ := resBind_ok h
    obtain rfl := Except.ok.inj h
    cases lines with
    | nil =>
      simp only [quoteLevelLoop, blockLoop] at hl
      obtain ⟨rfl, rfl⟩ := Prod.mk.inj (Except.ok.inj hl)
      exact absurd he (hP.nonempty e)
    | cons l rest =>
      simp only [quoteLevelLoop] at hs hl
      by_cases hneg : (0 : Int) + quoteLevelDiff l.content < 0
      · simp only [hneg, decide_true, Bool.and_self, if_true] at hs
        cases hs
      · simp only [hneg, decide_false, Bool.and_false, Bool.false_eq_true, if_false] at hs hl
        have hlev : 0 + quoteLevelDiff l.content = openQuotes [l] := by rw [openQuotes_one]; omega
        rw [hlev] at hs hl
        rw [blockLoop] at hl
        have hnone : blockHeader P expected [] 0 l = .ok none := by
          unfold blockHeader
          cases P.header l.content <;> simp
        rw [hnone] at hl
        obtain ⟨s, hs'⟩ := hid
        obtain ⟨ids, n, ns, h1, ⟨more, h2⟩, h3, h4⟩ := followers_loop hP rest [l] expected l [] [] done current e
          ⟨s, hP.header.mpr hs'⟩ hs hl he
        exact ⟨l, rest, n, ns, ids, rfl, h1, fun i hi => hP.named h2 i (hP.header.mpr hi), h3, h4⟩

theorem numeric_begins {i : Ident} {expected : Str} (hi : i = .one expected ∨ ∃ b, i = .range expected b)
    (h : IsNumericPointId expected) : Reference.beginsWithDigit i = .ok true := by
  have key : ∃ c r, expected = c :: r ∧ isDigit c = true := by
    have hn : ∀ {n r : Str}, IsNumber n → expected = n ++ r → ∃ c r, expected = c :: r ∧ isDigit c = true := by
      rintro n r hn rfl
      cases n with
      | nil => exact absurd rfl hn.1
      | cons c n => exact ⟨c, n ++ r, rfl, isNumber_digit hn c (by simp)⟩
    rcases h with (h | ⟨n, c, h, -, rfl⟩) | ⟨n, c, h, -, rfl⟩
    · exact hn (r := []) h (by simp)
    · exact hn h rfl
    · exact hn h rfl
  obtain ⟨c, r, rfl, hc⟩ := key
  rcases hi with rfl | ⟨b, rfl⟩ <;> simp [Reference.beginsWithDigit, hc]

theorem letter_begins {i : Ident} {expected : Str} (hi : i = .one expected ∨ ∃ b, i = .range expected b) {c : Char} {r : Str}
    (he : expected = c :: r) (hc : isLowerAz c = true) : Reference.beginsWithDigit i = .ok false := by
  subst he
  rcases hi with rfl | ⟨b, rfl⟩ <;> simp [Reference.beginsWithDigit, lower_not_digit hc]

theorem lowest_last {r : Reference} {i : Ident} {t : Reference.Level} {p expected s : Str} (hr : LowestPart r t i)
    (hi : i = .one expected ∨ ∃ b, i = .range expected b) (hs : LevelHeading t p s expected)
    (hp : t = .alphabeticSubpoint → p = expected.dropLast ∧
      (p = [] ∨ (∃ c, isLowerAz c = true ∧ p = [c]) ∨ p = py"ny" ∨ p = py"sz")) :
    r.lastComponentWithType = .ok (some i, some t) := by
  unfold Reference.lastComponentWithType
  cases t with
  | act => cases hr
  | article => obtain ⟨h1, h2, h3, h4⟩ := hr; rw [h4, h3, h2, h1]
  | paragraph => obtain ⟨h2, h3, h4⟩ := hr; rw [h4, h3, h2]
  | numericPoint =>
    obtain ⟨h3, h4⟩ := hr
    rw [h4, h3]
    simp only [numeric_begins hi hs.1, bind, Except.bind, if_true]
  | alphabeticPoint =>
    obtain ⟨h3, h4⟩ := hr
    rw [h4, h3]
    have : Reference.beginsWithDigit i = .ok false := by
      rcases hs.1 with ⟨c, hc, he⟩ | he | he
      · exact letter_begins hi he hc
      · exact letter_begins hi he (by decide)
      · exact letter_begins hi he (by decide)
    simp only [this, bind, Except.bind, Bool.false_eq_true, if_false]
  | numericSubpoint =>
    rw [show r.subpoint = some i from hr]
    simp only [numeric_begins hi hs.1, bind, Except.bind, if_true]
  | alphabeticSubpoint =>
    rw [show r.subpoint = some i from hr]
    have : Reference.beginsWithDigit i = .ok false := by
      rcases hs.1 with ⟨c, hc, he⟩ | he | he
      · rcases (hp rfl).2 with rfl | ⟨d, hd, rfl⟩ | rfl | rfl
        · exact letter_begins hi he hc
        · exact letter_begins hi he hd
        · exact letter_begins hi he (by decide)
        · exact letter_begins hi he (by decide)
      · exact letter_begins hi he (by decide)
      · exact letter_begins hi he (by decide)
    simp only [this, bind, Except.bind, Bool.false_eq_true, if_false]

end Verif
