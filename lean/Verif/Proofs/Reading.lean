import Verif.Proofs.Readings

/-! # References are read -/

namespace Verif.ActGrammar

open Peg Spec

/-! ## What is no list -/

theorem fails_partOf {k : PartKind} {s : Str} (h : Fails (rangeOf k) (s.dropWhile isSpace) ∧ Fails (singleOf k) (s.dropWhile isSpace)) :
    Fails (partOf k) s := by
  refine Fails.rule (Fails.bind fun n => many1_none ?_)
  exact fails_itemOf (by rw [dropWhile_idem]; exact h) n

theorem partOf_skip (k : PartKind) (i : At) : partOf k i.skip = partOf k i := rule_skip _ _

theorem fails_at_skip {k : PartKind} {s : Str} {j : At} {n : Nat} (h : Fails (partOf k) s) (hj : j.skip = ⟨n, s⟩) : partOf k j = none := by
  rw [← partOf_skip, hj]
  exact h n

/-- A list of articles needs a paragraph sign, and before it no `p` can be. -/
def NoP (t : Str) : Prop := ∀ X Y, t = X ++ 'p' :: Y → '§' ∈ X

theorem NoP.append {u v : Str} (hu : NoP u) (hv : NoP v) : NoP (u ++ v) := by
  intro X Y h
  rcases List.append_eq_append_iff.mp h with ⟨a, h1, h2⟩ | ⟨a, h1, h2⟩
  · rw [h1]
    exact List.mem_append_right _ (hv a Y h2)
  · cases a with
    | nil =>
      rw [List.append_nil] at h1
      have := hv [] Y (by simpa using h2.symm)
      cases this
    | cons x a =>
      cases h2
      exact hu X a h1

theorem noP_of {t : Str} (h : 'p' ∉ t) : NoP t := by
  intro X Y e
  exact absurd (by rw [e]; simp) h

theorem noP_sign {g : Str} (h : ArticleSign g) : NoP g := by
  rcases h with rfl | ⟨e, rfl, _⟩
  · exact noP_of (by decide)
  · intro X Y h
    cases X with
    | nil => exact absurd (List.cons.inj h).1 (by decide)
    | cons x X =>
      have := (List.cons.inj h).1
      rw [← this]
      exact List.mem_cons_self ..

theorem noP_articleNumber {x : Str} (h : ArticleNumber x) : NoP x := by
  obtain ⟨b, n, l, rfl, hb, hn, hl⟩ := h
  have dg : ∀ {d : Str}, Digits d → 'p' ∉ d := fun h hm => absurd (h.2 _ hm) (by decide)
  refine ((noP_of ?_).append (noP_of (dg hn))).append (noP_of ?_)
  · rcases hb with rfl | ⟨d, hd, rfl⟩
    · simp
    · simpa using dg hd
  · rcases hl with rfl | ⟨c, hc, rfl⟩
    · simp
    · have : 'p' ≠ c := (ne_of_class hc).symm
      simp [this]

theorem noP_items {s : Str} {xs : List Item} {a b : Nat} (h : ItemsWritten s .article xs a b) : NoP (told s a b) ∧ a ≤ b := by
  induction h with
  | nil a => rw [told_self]; exact ⟨noP_of (by simp), Nat.le_refl _⟩
  | @cons x xs a b c d e hx hp ha hs hd ht _ ih =>
    obtain ⟨ih1, ih2⟩ := ih
    obtain ⟨a', b', hp', hlt, _, hw⟩ := hx
    rw [hp] at hp'
    have h1 : b = a' ∧ c = b' := by
      injection hp' with h1 h2
      exact ⟨by omega, by omega⟩
    obtain ⟨rfl, rfl⟩ := h1
    have h2 : NoP (told s b c) := by
      cases x with
      | inl r =>
        obtain ⟨hx, hy, q, hq, m, hm, hw⟩ := hw
        rw [hw]
        refine ((((noP_articleNumber hx).append ?_).append ?_).append (noP_articleNumber hy)).append (noP_of (by decide))
        · rcases hm with rfl | ⟨g, rfl, hg⟩
          · exact noP_of (by simp)
          · exact (noP_of (by decide)).append (noP_sign hg)
        · obtain ⟨c, rfl, hc⟩ := dash_cases hq
          have : 'p' ≠ c := (dash_ne hc).symm
          exact noP_of (by simpa using this)
      | inr r =>
        obtain ⟨hi, hw⟩ := hw
        rw [hw]
        exact (noP_articleNumber hi).append (noP_of (by decide))
    have h3 : NoP (told s c d) := by
      obtain ⟨x, y, z, e, hx, hy, hz, _⟩ := ht
      rw [e]
      have k1 : ∀ t ∈ [py"", py",", py";"], 'p' ∉ t := by decide
      have k2 : ∀ t ∈ [py"", py"és", py"valamint", py"illetve", py"vagy"], 'p' ∉ t := by decide
      have k3 : ∀ t ∈ [py"", py"a", py"az"], 'p' ∉ t := by decide
      exact ((noP_of (k1 x hx)).append (noP_of (k2 y hy))).append (noP_of (k3 z hz))
    refine ⟨?_, by omega⟩
    rw [told_append s ha (by omega : b ≤ e), told_append s (by omega : b ≤ c) (by omega : c ≤ e), told_append s hd ih2, hs]
    exact h2.append (h3.append ih1)

/-- A text with a `p` before any paragraph sign does not begin with a list of articles. -/
theorem no_article {t X Y : Str} (h : squeeze t = X ++ 'p' :: Y) (hX : '§' ∉ X) : Fails (partOf .article) t := by
  intro n
  cases hp : partOf .article ⟨n, t⟩ with
  | none => rfl
  | some x =>
    exfalso
    have hin : (⟨n, t⟩ : At).In (List.replicate n 'a' ++ t) := ⟨by simp, by simp⟩
    obtain ⟨h1, h2, m, h3, h4, h5, items, b, h6, h7, h8, h9, h10, h11, h12⟩ := reads_articleReference _ x.1 x.2 hin hp
    generalize hs : List.replicate n 'a' ++ t = s at *
    replace h3 : n ≤ m := h3
    replace h4 : told s n m = [] := h4
    replace h5 : x.1.kind = .article := by
      cases hk : x.1.kind <;> rw [hk] at h5 <;> first | rfl | (exfalso; revert h5; decide)
    rw [h5] at h9 h12
    have h13 : NoP (told s n x.2.pos) := by
      rw [told_append s h3 (by have := (noP_items h9).2; omega), h4,
        told_append s (noP_items h9).2 (by omega)]
      exact (noP_items h9).1.append (noP_sign h12)
    have h14 : '§' ∈ told s n x.2.pos := by
      rw [told_append s (by have := (noP_items h9).2; omega : n ≤ b) (by omega)]
      refine List.mem_append_right _ ?_
      rcases h12 with h | ⟨e, h, _⟩ <;> rw [h] <;> simp
    have h15 : told s n x.2.pos <+: X ++ 'p' :: Y := by
      rw [← h]
      unfold told slice squeeze
      rw [← hs]
      have : (List.replicate n 'a' ++ t).drop n = t := by simp
      rw [this]
      exact (List.take_prefix ..).filter _
    obtain ⟨r, hr⟩ := h15
    rcases List.append_eq_append_iff.mp hr with ⟨a, k1, k2⟩ | ⟨a, k1, k2⟩
    · exact hX (by rw [k1]; exact List.mem_append_left _ h14)
    · cases a with
      | nil =>
        rw [List.append_nil] at k1
        rw [k1] at h14
        exact hX h14
      | cons y a =>
        cases k2
        exact hX (h13 X a k1)

/-! ## Letters that identify nothing -/

theorem alph_id {k : PartKind} (hk : k = .alphabeticPoint ∨ k = .alphabeticSubpoint) {n : Nat} {t x : Str} {j : At}
    (h : idOf k ⟨n, t⟩ = some (x, j)) (ht : t.dropWhile isSpace = t) :
    ∃ m, (m = 1 ∨ m = 2 ∧ (k = .alphabeticPoint → t.take 2 = py"ny" ∨ t.take 2 = py"sz")) ∧ j = ⟨n + m, t.drop m⟩ ∧
      ∀ c ∈ t.take m, isLowerAz c = true := by
  have hsk : (⟨n, t⟩ : At).skip = ⟨n, t⟩ := by
    cases t with
    | nil => rfl
    | cons c t =>
      refine skip_cons ?_ n
      cases hc : isSpace c with
      | false => rfl
      | true =>
        rw [List.dropWhile_cons, hc, if_pos rfl] at ht
        have := (List.dropWhile_sublist isSpace (l := t)).length_le
        rw [ht] at this
        simp at this
        omega
  have set1 : ∀ {y : Str} {j : At}, pattern (.set isLowerAz) ⟨n, t⟩ = some (y, j) → j = ⟨n + 1, t.drop 1⟩ ∧ ∀ c ∈ t.take 1, isLowerAz c = true := by
    intro y j h
    cases t with
    | nil => cases h
    | cons c t =>
      cases hc : isLowerAz c with
      | false => rw [pattern_none (set_none (by rintro _ ⟨⟩; exact hc))] at h; cases h
      | true =>
        rw [set_some hc] at h
        cases h
        exact ⟨rfl, by simpa using hc⟩
  have two : ∀ {w : Str} {y : Str} {j : At}, w.length = 2 → token w ⟨n, t⟩ = some (y, j) → t.take 2 = w ∧ j = ⟨n + 2, t.drop 2⟩ := by
    intro w y j hw h
    unfold token at h
    simp only [hsk] at h
    split at h
    · rename_i hp
      cases h
      rw [Bool.and_eq_true, List.isPrefixOf_iff_prefix] at hp
      obtain ⟨r, hr⟩ := hp.1
      refine ⟨?_, ?_⟩
      · rw [← hr, ← hw, List.take_left]
      · rw [hw]; rfl
    · cases h
  rcases hk with rfl | rfl
  · have h' : Peg.or (tokens [py"ny", py"sz"]) (pattern (.set isLowerAz)) ⟨n, t⟩ = some (x, j) := by
      have : (rule (Peg.or (tokens [py"ny", py"sz"]) (pattern (.set isLowerAz)))) ⟨n, t⟩ = some (x, j) := h
      rw [rule, hsk] at this
      exact this
    cases h1 : token (py"ny") ⟨n, t⟩ with
    | some y =>
      have h3 : tokens [py"ny", py"sz"] ⟨n, t⟩ = some y := or_left h1
      rw [or_left h3] at h'
      cases h'
      obtain ⟨a, b⟩ := two rfl h1
      exact ⟨2, .inr ⟨rfl, fun _ => .inl a⟩, b, by rw [a]; decide⟩
    | none =>
      cases h2 : token (py"sz") ⟨n, t⟩ with
      | some y =>
        have h3 : tokens [py"ny", py"sz"] ⟨n, t⟩ = some y := by
          unfold tokens
          rw [or_right h1]
          exact or_left h2
        rw [or_left h3] at h'
        cases h'
        obtain ⟨a, b⟩ := two rfl h2
        exact ⟨2, .inr ⟨rfl, fun _ => .inr a⟩, b, by rw [a]; decide⟩
      | none =>
        have h3 : tokens [py"ny", py"sz"] ⟨n, t⟩ = none := tokens_none (by
          intro u hu
          simp only [List.mem_cons, List.not_mem_nil, or_false] at hu
          rcases hu with rfl | rfl
          · exact h1
          · exact h2)
        rw [or_right h3] at h'
        obtain ⟨a, b⟩ := set1 h'
        exact ⟨1, .inl rfl, a, b⟩
  · have h' : pattern (.seq (.set isLowerAz) (.opt (.set isLowerAz))) ⟨n, t⟩ = some (x, j) := by
      have : (rule (pattern (.seq (.set isLowerAz) (.opt (.set isLowerAz))))) ⟨n, t⟩ = some (x, j) := h
      rw [rule, hsk] at this
      exact this
    cases t with
    | nil => cases h'
    | cons c t =>
      cases hc : isLowerAz c with
      | false => rw [pattern_none (seq_none (set_none (by rintro _ ⟨⟩; exact hc)))] at h'; cases h'
      | true =>
        cases t with
        | nil =>
          unfold pattern at h'
          simp [Regex.ends, hc] at h'
          exact ⟨1, .inl rfl, h'.2.symm, by simpa using hc⟩
        | cons d t =>
          unfold pattern at h'
          cases hd : isLowerAz d with
          | false =>
            simp [Regex.ends, hc, hd] at h'
            exact ⟨1, .inl rfl, h'.2.symm, by simpa using hc⟩
          | true =>
            simp [Regex.ends, hc, hd] at h'
            exact ⟨2, .inr ⟨rfl, nofun⟩, h'.2.symm, by simp [hc, hd]⟩

theorem fails_alph {k : PartKind} (hk : k = .alphabeticPoint ∨ k = .alphabeticSubpoint) {t : Str} (ht : t.dropWhile isSpace = t)
    (h : ∀ m, m = 1 ∨ m = 2 ∧ (k = .alphabeticPoint → t.take 2 = py"ny" ∨ t.take 2 = py"sz") → (∀ c ∈ t.take m, isLowerAz c = true) →
      t ≠ [] → NotFirst (py")-–−") (t.drop m)) : Fails (rangeOf k) t ∧ Fails (singleOf k) t := by
  have key : ∀ {α : Type} {f : Str → Peg α}, (∀ x s, NotFirst (py")-–−") s → Fails (f x) s) → Fails (idOf k >>= f) t := by
    intro α f hf n
    cases hi : idOf k ⟨n, t⟩ with
    | none => exact bind_none hi
    | some y =>
      rw [bind_some (a := y.1) (j := y.2) hi]
      obtain ⟨m, h1, h2, h3⟩ := alph_id hk hi ht
      rw [h2]
      refine hf _ _ (h m h1 h3 ?_) _
      rintro rfl
      rcases hk with rfl | rfl <;> cases hi
  have nc : ∀ s, NotFirst (py")-–−") s → Fails (token (py")")) s := fun s hs => fails_first (a := ')') rfl (notFirst_sub hs (by decide))
  have nd : ∀ s, NotFirst (py")-–−") s → Fails dash s := fun s hs => fails_dash (notFirst_sub hs (by decide))
  rcases hk with rfl | rfl
  · refine ⟨key fun x s hs => ?_, key fun x s hs => (nc s hs).bind⟩
    exact (nc s hs).opt.fails (nd s hs).bind
  · exact ⟨key fun x s hs => (nc s hs).bind, key fun x s hs => (nc s hs).bind⟩

theorem fails_alph_start {k : PartKind} (hk : k = .alphabeticPoint ∨ k = .alphabeticSubpoint) {t : Str} (ht : t.dropWhile isSpace = t)
    (h : ∀ c ∈ first t, isLowerAz c = false) : Fails (rangeOf k) t ∧ Fails (singleOf k) t := by
  refine fails_alph hk ht fun m hm hl hne => ?_
  exfalso
  obtain ⟨c, t, rfl⟩ := List.exists_cons_of_ne_nil hne
  have h1 : isLowerAz c = true := by
    rcases hm with rfl | ⟨rfl, _⟩ <;> exact hl c (by simp)
  have h2 := h c (by rw [first_cons (lower_not_space h1)]; rfl)
  rw [h1] at h2
  cases h2

theorem fails_paragraph_start {t : Str} (h : NotFirst (py"(") t) : Fails (rangeOf .paragraph) t ∧ Fails (singleOf .paragraph) t := by
  have : Fails (token (py"(")) t := fails_first (a := '(') rfl h
  exact ⟨this.bind, this.bind⟩

/-- With what the lists of a kind begin. -/
def Begins : PartKind → Char → Prop
  | .article, c | .numericPoint, c | .numericSubpoint, c => isAsciiDigit c = true
  | .paragraph, c => c = '('
  | .alphabeticPoint, c | .alphabeticSubpoint, c => isLowerAz c = true

theorem begins_not_space {k : PartKind} {c : Char} (h : Begins k c) : isSpace c = false := by
  cases k with
  | article => exact digit_not_space h
  | numericPoint => exact digit_not_space h
  | numericSubpoint => exact digit_not_space h
  | paragraph => cases h; decide
  | alphabeticPoint => exact lower_not_space h
  | alphabeticSubpoint => exact lower_not_space h

/-- A list of a kind cannot begin like this. -/
theorem fails_start {k : PartKind} {c : Char} {t : Str} (hs : isSpace c = false) (h : ¬ Begins k c) : Fails (partOf k) (c :: t) := by
  refine fails_partOf ?_
  rw [dropWhile_cons_of hs]
  have num : ∀ {k}, (k = .article ∨ k = .numericPoint ∨ k = .numericSubpoint) → ¬ isAsciiDigit c = true →
      Fails (rangeOf k) (c :: t) ∧ Fails (singleOf k) (c :: t) := fun hk h =>
    fails_item_number hk (by rw [first_cons hs]; rintro _ ⟨⟩; simpa using h)
  have alph : ∀ {k}, (k = .alphabeticPoint ∨ k = .alphabeticSubpoint) → ¬ isLowerAz c = true →
      Fails (rangeOf k) (c :: t) ∧ Fails (singleOf k) (c :: t) := fun hk h =>
    fails_alph_start hk (dropWhile_cons_of hs) (by rw [first_cons hs]; rintro _ ⟨⟩; simpa using h)
  cases k with
  | article => exact num (.inl rfl) h
  | numericPoint => exact num (.inr (.inl rfl)) h
  | numericSubpoint => exact num (.inr (.inr rfl)) h
  | paragraph => exact fails_paragraph_start (notFirst_cons hs (by simpa [Begins] using h))
  | alphabeticPoint => exact alph (.inl rfl) h
  | alphabeticSubpoint => exact alph (.inr rfl) h

theorem id_start {k : PartKind} {id : Str} (h : Identifies k id) (hk : k ≠ .paragraph) : ∃ c t, id = c :: t ∧ Begins k c := by
  have dig : ∀ {d s : Str}, Digits d → ∃ c t, d ++ s = c :: t ∧ isAsciiDigit c = true := by
    intro d s h
    obtain ⟨c, d, rfl⟩ := List.exists_cons_of_ne_nil h.1
    exact ⟨c, d ++ s, rfl, h.2 c (List.mem_cons_self ..)⟩
  cases k with
  | article =>
    obtain ⟨b, n, l, rfl, hb, hn, hl⟩ := h
    rcases hb with rfl | ⟨d, hd, rfl⟩
    · rw [List.nil_append]; exact dig hn
    · simp only [List.append_assoc]; exact dig hd
  | paragraph => exact absurd rfl hk
  | numericPoint => obtain ⟨n, l, rfl, hn, hl⟩ := h; exact dig hn
  | numericSubpoint =>
    have := dig (s := []) h
    rw [List.append_nil] at this
    exact this
  | alphabeticPoint =>
    rcases h with rfl | rfl | ⟨x, hx, rfl⟩
    · exact ⟨'n', _, rfl, by unfold Begins; decide⟩
    · exact ⟨'s', _, rfl, by unfold Begins; decide⟩
    · exact ⟨x, [], rfl, hx⟩
  | alphabeticSubpoint =>
    rcases h with ⟨x, hx, rfl⟩ | ⟨x, y, hx, hy, rfl⟩
    · exact ⟨x, [], rfl, hx⟩
    · exact ⟨x, [y], rfl, hx⟩

theorem item_start {k : PartKind} {n : Nat} {x : Item} {w : Str} (h : ItemText k n x w) : ∃ c t, w = c :: t ∧ Begins k c := by
  obtain ⟨-, h⟩ := h
  have app : ∀ {id s : Str}, Identifies k id → k ≠ .paragraph → ∃ c t, id ++ s = c :: t ∧ Begins k c := by
    intro id s h hk
    obtain ⟨c, t, rfl, hb⟩ := id_start h hk
    exact ⟨c, t ++ s, rfl, hb⟩
  cases x with
  | inl r =>
    obtain ⟨hx, hy, d, hd, hw⟩ := h
    cases k with
    | paragraph => exact ⟨'(', _, hw, rfl⟩
    | article => rw [hw]; simp only [List.append_assoc]; exact app hx (by decide)
    | numericPoint => rw [hw]; simp only [List.append_assoc]; exact app hx (by decide)
    | numericSubpoint => rw [hw]; simp only [List.append_assoc]; exact app hx (by decide)
    | alphabeticPoint => obtain ⟨m, hm, rfl⟩ := hw; simp only [List.append_assoc]; exact app hx (by decide)
    | alphabeticSubpoint => rw [hw]; simp only [List.append_assoc]; exact app hx (by decide)
  | inr r =>
    obtain ⟨hi, hw⟩ := h
    cases k with
    | paragraph => exact ⟨'(', _, hw, rfl⟩
    | article => rw [hw]; exact app hi (by decide)
    | numericPoint => rw [hw]; exact app hi (by decide)
    | numericSubpoint => rw [hw]; exact app hi (by decide)
    | alphabeticPoint => rw [hw]; exact app hi (by decide)
    | alphabeticSubpoint => rw [hw]; exact app hi (by decide)

theorem items_start {k : PartKind} {n : Nat} {xs : List Item} {w : Str} (h : ItemsText k n xs w) : ∃ c t, w = c :: t ∧ Begins k c := by
  cases h with
  | one h => exact item_start h
  | cons h _ _ =>
    obtain ⟨c, t, rfl, hb⟩ := item_start h
    exact ⟨c, _, rfl, hb⟩

theorem part_start {n : Nat} {p : ParsedPart} {w : Str} (h : PartText n p w) : ∃ c t, w = c :: t ∧ Begins p.kind c := by
  obtain ⟨items, u, e, hi, _, rfl, _⟩ := h
  obtain ⟨c, t, rfl, hb⟩ := items_start hi
  exact ⟨c, _, rfl, hb⟩

/-! ## Lists of other levels -/

theorem fails_suffix {t s : Str} (ht : t ≠ []) (h : t.isPrefixOf (s.dropWhile isSpace) = false) : Fails (suffix t) s := by
  refine Fails.rule (Fails.or (fails_pattern (seq_none (str_none _ _ ht h))) fun n => token_not_prefix ?_)
  rw [dropWhile_idem]
  exact h

theorem suffix_skip (t : Str) (i : At) : suffix t i.skip = suffix t i := rule_skip _ _

/-- A list without the right word at its end is none. -/
theorem part_none {k : PartKind} {j m : At} {as : List Item} (h : Steps (itemOf k) j.skip as m) (h1 : itemOf k m = none) (h2 : suffixOf k m = none) :
    partOf k j = none := by
  show (many1 (itemOf k) >>= fun items => suffixOf k >>= fun _ =>
    (pure (⟨k, items.filterMap Sum.getRight?, items.filterMap Sum.getLeft?⟩ : ParsedPart) : Peg ParsedPart)) j.skip = _
  cases h with
  | nil => exact bind_none (many1_none h1)
  | cons a b c =>
    rw [bind_some (many1_steps (.cons a b c) (by simp) h1)]
    exact bind_none h2

theorem two_letters_no_point {c d : Char} {s : Str} (hc : isLowerAz c = true) (hd : isLowerAz d = true) (hny : [c, d] ≠ py"ny") (hsz : [c, d] ≠ py"sz") :
    Fails (rangeOf .alphabeticPoint) (c :: d :: s) ∧ Fails (singleOf .alphabeticPoint) (c :: d :: s) := by
  refine fails_alph (.inl rfl) (dropWhile_cons_of (lower_not_space hc)) fun m hm _ _ => ?_
  rcases hm with rfl | ⟨rfl, h⟩
  · refine notFirst_cons (lower_not_space hd) ?_
    have h1 : ∀ x ∈ py")-–−", isLowerAz x = false := by decide +kernel
    intro hm
    have := h1 d hm
    rw [hd] at this
    cases this
  · rcases h rfl with h | h
    · exact absurd h hny
    · exact absurd h hsz

theorem fails_then {x s : Str} (h : Fails (singleOf .alphabeticPoint) s) :
    Fails (do let y ← alphabeticPointId; let _ ← token (py")"); pure (x, y) : Peg (Str × Str)) s := by
  intro n
  cases hi : alphabeticPointId ⟨n, s⟩ with
  | none => exact bind_none hi
  | some y =>
    have h1 := h n
    have h2 : (alphabeticPointId >>= fun id => token (py")") >>= fun _ => (pure id : Peg Str)) ⟨n, s⟩ = none := h1
    rw [bind_some (a := y.1) (j := y.2) hi] at h2 ⊢
    cases ht : token (py")") y.2 with
    | none => exact bind_none ht
    | some z =>
      rw [bind_some (a := z.1) (j := z.2) ht] at h2
      cases h2

theorem skip_of_start {n : Nat} {c : Char} {t : Str} {j : At} (hj : j.skip = ⟨n, c :: t⟩) : isSpace c = false := by
  have h := skip_skip j
  rw [hj] at h
  cases hc : isSpace c with
  | false => rfl
  | true =>
    rw [skip_space hc] at h
    have h2 : (⟨n + 1, t⟩ : At).skip.rest.length ≤ t.length := by simp [At.skip, At.move]
    rw [h] at h2
    simp at h2
    omega

/-- Subpoints are not taken for points: nothing can be read, or what can be read has no `pont` after it. -/
theorem no_points {n : Nat} {xs : List Item} {w : Str} (h : ItemsText .alphabeticSubpoint n xs w) : ∀ {e rest : Str} {j : At},
    EndText .alphabeticSubpoint e → j.skip = ⟨n, w ++ (' ' :: e ++ rest)⟩ → (w ++ (' ' :: e ++ rest)).length ≤ j.rest.length →
    ∃ as k, Steps (itemOf .alphabeticPoint) j as k ∧ itemOf .alphabeticPoint k = none ∧ suffix (py"pont") k = none := by
  -- nothing can be read at this place
  have stuck : ∀ {n : Nat} {j : At} {c d : Char} {s : Str}, j.skip = ⟨n, c :: d :: ')' :: s⟩ → isLowerAz c = true → isLowerAz d = true →
      [c, d] ≠ py"ny" → [c, d] ≠ py"sz" →
      ∃ as k, Steps (itemOf .alphabeticPoint) j as k ∧ itemOf .alphabeticPoint k = none ∧ suffix (py"pont") k = none := by
    intro n j c d s hj hc hd hny hsz
    refine ⟨[], j, .nil _, ?_, ?_⟩
    · rw [← itemOf_skip, hj]
      exact fails_itemOf (by rw [dropWhile_cons_of (lower_not_space hc)]; exact two_letters_no_point hc hd hny hsz) n
    · rw [← suffix_skip, hj]
      refine fails_suffix (by decide) ?_ n
      rw [dropWhile_cons_of (lower_not_space hc)]
      simp [List.isPrefixOf]
  -- what is an item of points as well
  have same : ∀ {n : Nat} {x : Item} {w : Str}, ItemText .alphabeticSubpoint n x w → ItemText .alphabeticPoint n x w ∨
      (∃ c d s, w = c :: d :: ')' :: s ∧ isLowerAz c = true ∧ isLowerAz d = true ∧ [c, d] ≠ (py"ny") ∧ [c, d] ≠ py"sz") ∨
      ∃ id q y1 y2, SingleWritten .alphabeticPoint id (id ++ py")") ∧ Dash q ∧ w = id ++ (py")") ++ (q ++ y1 :: y2 :: py")") ∧
        isLowerAz y1 = true ∧ isLowerAz y2 = true ∧ [y1, y2] ≠ (py"ny") ∧ [y1, y2] ≠ py"sz" := by
    have cls : ∀ {id : Str}, Identifies .alphabeticSubpoint id → Identifies .alphabeticPoint id ∨
        ∃ c d, id = [c, d] ∧ isLowerAz c = true ∧ isLowerAz d = true ∧ [c, d] ≠ (py"ny") ∧ [c, d] ≠ py"sz" := by
      rintro id (⟨c, hc, rfl⟩ | ⟨c, d, hc, hd, rfl⟩)
      · exact .inl (.inr (.inr ⟨c, hc, rfl⟩))
      · by_cases h1 : [c, d] = py"ny"
        · exact .inl (.inl h1)
        · by_cases h2 : [c, d] = py"sz"
          · exact .inl (.inr (.inl h2))
          · exact .inr ⟨c, d, rfl, hc, hd, h1, h2⟩
    rintro n x w ⟨hp, h⟩
    cases x with
    | inr r =>
      obtain ⟨hi, hw⟩ := h
      rcases cls hi with hi | ⟨c, d, hid, hc, hd, h1, h2⟩
      · exact .inl ⟨hp, hi, hw⟩
      · refine .inr (.inl ⟨c, d, [], ?_, hc, hd, h1, h2⟩)
        rw [hw, hid]
        rfl
    | inl r =>
      obtain ⟨hx, hy, q, hq, hw⟩ := h
      rcases cls hx with hx | ⟨c, d, hid, hc, hd, h1, h2⟩
      · rcases cls hy with hy | ⟨c, d, hid, hc, hd, h1, h2⟩
        · exact .inl ⟨hp, hx, hy, q, hq, py")", .inr rfl, hw⟩
        · refine .inr (.inr ⟨r.1.1, q, c, d, ⟨hx, rfl⟩, hq, ?_, hc, hd, h1, h2⟩)
          rw [hw, hid]
          simp
      · refine .inr (.inl ⟨c, d, q ++ r.1.2 ++ py")", ?_, hc, hd, h1, h2⟩)
        rw [hw, hid]
        simp
  -- a range to what is no point
  have half : ∀ {n : Nat} {j : At} {id q s : Str} {y1 y2 : Char}, j.skip = ⟨n, id ++ (py")") ++ (q ++ y1 :: y2 :: s)⟩ →
      (id ++ (py")") ++ (q ++ y1 :: y2 :: s)).length ≤ j.rest.length → SingleWritten .alphabeticPoint id (id ++ py")") → Dash q →
      isLowerAz y1 = true → isLowerAz y2 = true → [y1, y2] ≠ (py"ny") → [y1, y2] ≠ (py"sz") →
      ∃ as k, Steps (itemOf .alphabeticPoint) j as k ∧ itemOf .alphabeticPoint k = none ∧ suffix (py"pont") k = none := by
    intro n j id q s y1 y2 hj hl hid hq h1 h2 hny hsz
    have hr : Fails (rangeOf .alphabeticPoint) (id ++ (py")") ++ (q ++ y1 :: y2 :: s)) := by
      rw [List.append_assoc]
      refine (reads_alphabeticPointId hid.1 (stop_close _)).fails ((reads_close _).opt.fails ((reads_dash hq _).fails ?_))
      exact fails_then (two_letters_no_point h1 h2 hny hsz).2
    obtain ⟨c, t, hct, hb⟩ := id_start hid.1 (by decide)
    have hdw : (id ++ (py")") ++ (q ++ y1 :: y2 :: s)).dropWhile isSpace = id ++ (py")") ++ (q ++ y1 :: y2 :: s) := by
      rw [hct]; exact dropWhile_cons_of (begins_not_space hb)
    have hsk : (⟨n, id ++ (py")") ++ (q ++ y1 :: y2 :: s)⟩ : At).skip = ⟨n, id ++ (py")") ++ (q ++ y1 :: y2 :: s)⟩ := by
      rw [hct]; exact skip_cons (begins_not_space hb) n
    have h3 : located (singleOf .alphabeticPoint) ⟨n, id ++ (py")") ++ (q ++ y1 :: y2 :: s)⟩ =
        some ((id, (n : Int), ((n + (id ++ py")").length : Nat) : Int)), ⟨n + (id ++ py")").length, q ++ y1 :: y2 :: s⟩) := by
      unfold located
      rw [hsk, reads_single hid _ n]
    have hsep : separated ⟨n + (id ++ py")").length, q ++ y1 :: y2 :: s⟩ = some ((), ⟨n + (id ++ py")").length, q ++ y1 :: y2 :: s⟩) :=
      separated_nothing (notFirst_dash hq (by decide)) _
    have h4 : itemOf .alphabeticPoint ⟨n, id ++ (py")") ++ (q ++ y1 :: y2 :: s)⟩ =
        some (.inr (id, (n : Int), ((n + (id ++ py")").length : Nat) : Int)), ⟨n + (id ++ py")").length, q ++ y1 :: y2 :: s⟩) := by
      unfold itemOf item
      have h5 : Peg.or (do let x ← located (rangeOf .alphabeticPoint); pure (Sum.inl x)) (do let x ← located (singleOf .alphabeticPoint); pure (Sum.inr x) : Peg Item)
          ⟨n, id ++ (py")") ++ (q ++ y1 :: y2 :: s)⟩ =
          some (.inr (id, (n : Int), ((n + (id ++ py")").length : Nat) : Int)), ⟨n + (id ++ py")").length, q ++ y1 :: y2 :: s⟩) := by
        rw [or_right (bind_none (Fails.located (by rw [hdw]; exact hr) n)), bind_some h3]
        rfl
      rw [bind_some h5, bind_some hsep]
      rfl
    rw [← hj, itemOf_skip] at h4
    have hds : ∀ c ∈ py"−–-", isSpace c = false ∧ isLowerAz c = false ∧ c ≠ 'p' := by decide +kernel
    obtain ⟨d, rfl, hd⟩ := dash_cases hq
    obtain ⟨d1, d2, d3⟩ := hds d hd
    refine ⟨_, _, .cons h4 ?_ (.nil _), ?_, ?_⟩
    · rw [List.length_append] at hl
      simp only [List.length_append, List.length_cons] at hl ⊢
      omega
    · refine fails_itemOf ?_ _
      rw [List.singleton_append, dropWhile_cons_of d1]
      exact fails_alph_start (.inl rfl) (dropWhile_cons_of d1) (by rw [first_cons d1]; rintro _ ⟨⟩; exact d2)
    · refine fails_suffix (by decide) ?_ _
      rw [List.singleton_append, dropWhile_cons_of d1]
      simp [List.isPrefixOf, Ne.symm d3]
  induction h with
  | @one n x w h =>
    intro e rest j he hj hl
    rcases same h with h' | ⟨c, d, s, rfl, hc, hd, h1, h2⟩ | ⟨id, q, y1, y2, hid, hq, rfl, hy1, hy2, h1, h2⟩
    · obtain ⟨l, rfl, hl'⟩ := he
      have ea : ' ' :: ((py"alpont") ++ l) ++ rest = ' ' :: 'a' :: 'l' :: ((py"pont") ++ l ++ rest) := rfl
      rw [ea] at hj hl
      have hns : isSpace 'a' = false := by decide
      have hf : ∀ cs : Str, 'a' ∉ cs → NotFirst cs (' ' :: 'a' :: 'l' :: ((py"pont") ++ l ++ rest)) := by
        intro cs hcs c hc
        rw [first_space, first_cons hns] at hc
        cases hc
        exact hcs
      have h2 := items_read (.one h') (rest := ' ' :: 'a' :: 'l' :: ((py"pont") ++ l ++ rest)) ⟨hf _ (by decide), nofun⟩
        (separated_nothing (hf _ (by decide))) hj hl
      refine ⟨_, _, h2, fails_itemOf ?_ _, fails_suffix (by decide) ?_ _⟩
      · rw [dropWhile_space, dropWhile_cons_of hns]
        exact fails_letter_item (by decide) (by decide) (by decide) (by decide)
      · rw [dropWhile_space, dropWhile_cons_of hns]
        simp [List.isPrefixOf]
    · exact stuck hj hc hd h1 h2
    · refine half (n := n) (s := (py")") ++ (' ' :: e ++ rest)) (by rw [hj]; simp) (Nat.le_trans (by simp) hl) hid hq hy1 hy2 h1 h2
  | @cons n x w g xs v h hg hxs ih =>
    intro e rest j he hj hl
    rcases same h with h' | ⟨c, d, s, rfl, hc, hd, h1, h2⟩ | ⟨id, q, y1, y2, hid, hq, rfl, hy1, hy2, h1, h2⟩
    · have hst : ItemStart (v ++ (' ' :: e ++ rest)) := by
        cases hxs with
        | one h => exact itemStart h _
        | cons h _ _ => simp only [List.append_assoc]; exact itemStart h _
      have h1 := item_read h' (after_separator (k := .alphabeticPoint) hg (v ++ (' ' :: e ++ rest)))
      obtain ⟨j', h2, h3, h4⟩ := separated_reads hg hst (n + w.length)
      have h5 : itemOf .alphabeticPoint ⟨n, w ++ (g ++ (v ++ (' ' :: e ++ rest)))⟩ = some (x, j') := by
        unfold itemOf item
        rw [bind_some h1, bind_some h2]
        rfl
      have e1 : w ++ g ++ v ++ (' ' :: e ++ rest) = w ++ (g ++ (v ++ (' ' :: e ++ rest))) := by simp
      rw [e1] at hj hl
      rw [← hj, itemOf_skip] at h5
      have h6 : j'.skip.rest.length ≤ j'.rest.length := by simp [At.skip, At.move]
      rw [h3] at h6
      obtain ⟨as, k, k1, k2, k3⟩ := ih he h3 h6
      refine ⟨x :: as, k, .cons h5 ?_ k1, k2, k3⟩
      obtain ⟨c, t, he, _⟩ := item_start h
      rw [List.length_append] at hl
      simp only [he, List.length_cons] at hl
      omega
    · exact stuck (by rw [hj]; simp only [List.cons_append]; rfl) hc hd h1 h2
    · refine half (n := n) (s := (py")") ++ g ++ v ++ (' ' :: e ++ rest)) (by rw [hj]; simp) (Nat.le_trans (by simp) hl) hid hq hy1 hy2 h1 h2

theorem numeric_items {n : Nat} {xs : List Item} {w : Str} (h : ItemsText .numericSubpoint n xs w) : ItemsText .numericPoint n xs w := by
  have id : ∀ {i : Str}, Identifies .numericSubpoint i → Identifies .numericPoint i := fun {i} h => ⟨i, [], by simp, h, .inl rfl⟩
  have it : ∀ {n : Nat} {x : Item} {w : Str}, ItemText .numericSubpoint n x w → ItemText .numericPoint n x w := by
    rintro n x w ⟨hp, h⟩
    cases x with
    | inl r => obtain ⟨hx, hy, q, hq, hw⟩ := h; exact ⟨hp, id hx, id hy, q, hq, hw⟩
    | inr r => exact ⟨hp, id h.1, h.2⟩
  induction h with
  | one h => exact .one (it h)
  | cons h hg _ ih => exact .cons (it h) hg ih

/-- Subpoints are not points. -/
theorem subpoint_no_point {n : Nat} {p : ParsedPart} {w rest : Str} {j : At} (h : PartText n p w) (hj : j.skip = ⟨n, w ++ rest⟩) :
    (p.kind = .alphabeticSubpoint → partOf .alphabeticPoint j = none) ∧ (p.kind = .numericSubpoint → partOf .numericPoint j = none) := by
  obtain ⟨items, u, e, hi, he, rfl, -, -⟩ := h
  have e0 : u ++ ' ' :: e ++ rest = u ++ (' ' :: e ++ rest) := by simp
  rw [e0] at hj
  have hh : j.skip.skip = ⟨n, u ++ (' ' :: e ++ rest)⟩ := by rw [skip_skip, hj]
  have hl : (u ++ (' ' :: e ++ rest)).length ≤ j.skip.rest.length := by rw [hj]; exact Nat.le_refl _
  refine ⟨fun hk => ?_, fun hk => ?_⟩
  · rw [hk] at hi he
    obtain ⟨as, k, h1, h2, h3⟩ := no_points hi he hh hl
    exact part_none h1 h2 h3
  · rw [hk] at hi he
    obtain ⟨l, rfl, hl'⟩ := he
    have ea : ' ' :: ((py"alpont") ++ l) ++ rest = ' ' :: 'a' :: 'l' :: ((py"pont") ++ l ++ rest) := rfl
    rw [ea] at hh hl
    have hns : isSpace 'a' = false := by decide
    have hf : ∀ cs : Str, 'a' ∉ cs → NotFirst cs (' ' :: 'a' :: 'l' :: ((py"pont") ++ l ++ rest)) := by
      intro cs hcs c hc
      rw [first_space, first_cons hns] at hc
      cases hc
      exact hcs
    have h2 := items_read (numeric_items hi) (rest := ' ' :: 'a' :: 'l' :: ((py"pont") ++ l ++ rest)) ⟨hf _ (by decide), nofun⟩
      (separated_nothing (hf _ (by decide))) hh hl
    refine part_none h2 (fails_itemOf ?_ _) (fails_suffix (by decide) ?_ _)
    · rw [dropWhile_space, dropWhile_cons_of hns]
      exact fails_item_number (.inr (.inl rfl)) (by rw [first_cons hns]; rintro _ ⟨⟩; decide)
    · rw [dropWhile_space, dropWhile_cons_of hns]
      simp [List.isPrefixOf]

theorem no_sign_items {k : PartKind} (hk : k = .numericPoint ∨ k = .numericSubpoint) {n : Nat} {xs : List Item} {w : Str} (h : ItemsText k n xs w) :
    '§' ∉ w := by
  have dg : ∀ {d : Str}, Digits d → '§' ∉ d := fun h hm => absurd (h.2 _ hm) (by decide)
  have id : ∀ {i : Str}, Identifies k i → '§' ∉ i := by
    intro i h
    rcases hk with rfl | rfl
    · obtain ⟨d, l, rfl, hd, hl⟩ := h
      rcases hl with rfl | ⟨c, hc, rfl | rfl⟩
      · simpa using dg hd
      · have : '§' ≠ c := (ne_of_class hc).symm
        simp [dg hd, this]
      · have : '§' ≠ c := (ne_of_class hc).symm
        simp [dg hd, this]
    · exact dg h
  have it : ∀ {n : Nat} {x : Item} {w : Str}, ItemText k n x w → '§' ∉ w := by
    rintro n x w ⟨-, h⟩
    cases x with
    | inl r =>
      obtain ⟨hx, hy, q, hq, hw⟩ := h
      have hw' : w = r.1.1 ++ q ++ r.1.2 ++ py"." := by rcases hk with rfl | rfl <;> exact hw
      obtain ⟨c, rfl, hc⟩ := dash_cases hq
      have : '§' ≠ c := (dash_ne hc).symm
      simp [hw', id hx, id hy, this]
    | inr r =>
      have hw' : w = r.1 ++ py"." := by rcases hk with rfl | rfl <;> exact h.2
      simp [hw', id h.1]
  have sp : ∀ {g : Str}, SeparatorText g → '§' ∉ g := by
    rintro g ⟨c, o, a, rfl, hc, ho, ha, -⟩
    have h1 : ∀ x ∈ [py"", py",", py";"], '§' ∉ x := by decide
    have h2 : ∀ x ∈ [py"", py" és", py" valamint", py" illetve", py" vagy"], '§' ∉ x := by decide
    have h3 : ∀ x ∈ [py"", py" a", py" az"], '§' ∉ x := by decide
    simp [h1 c hc, h2 o ho, h3 a ha]
  induction h with
  | one h => exact it h
  | cons h hg _ ih => simp [it h, sp hg, ih]

/-- Points are not articles. -/
theorem point_no_article {n : Nat} {p : ParsedPart} {w rest : Str} (h : PartText n p w) (hk : p.kind = .numericPoint ∨ p.kind = .numericSubpoint) :
    Fails (partOf .article) (w ++ rest) := by
  obtain ⟨items, u, e, hi, he, rfl, -, -⟩ := h
  have h1 := no_sign_items hk hi
  have h2 : '§' ∉ squeeze u := fun hm => h1 ((List.mem_filter.mp hm).1)
  have sq : ∀ a b : Str, squeeze (a ++ b) = squeeze a ++ squeeze b := fun a b => List.filter_append ..
  rcases hk with hk | hk
  · rw [hk] at he
    obtain ⟨l, rfl, hl⟩ := he
    refine no_article (X := squeeze u) (Y := squeeze ((py"ont") ++ l ++ rest)) ?_ h2
    have : u ++ ' ' :: ((py"pont") ++ l) ++ rest = u ++ ((py" p") ++ ((py"ont") ++ l ++ rest)) := by simp
    rw [this, sq, sq]
    rfl
  · rw [hk] at he
    obtain ⟨l, rfl, hl⟩ := he
    refine no_article (X := squeeze u ++ py"al") (Y := squeeze ((py"ont") ++ l ++ rest)) ?_ (by simp [h2])
    have : u ++ ' ' :: ((py"alpont") ++ l) ++ rest = u ++ ((py" alp") ++ ((py"ont") ++ l ++ rest)) := by simp
    rw [this, sq, sq]
    have h3 : squeeze (py" alp") = py"alp" := by decide
    rw [h3]
    simp

/-! ## References -/

/-- The text does not go on with a list. -/
structure Quiet (rest : Str) : Prop where
  word : WordEnds rest
  parts : ∀ k, Fails (partOf k) rest
  noRange : ∀ n, (dash ⟨n, rest⟩ >>= fun y => articleId y.2) = none

theorem skip_one {n : Nat} {c : Char} {s : Str} (h : isSpace c = false) : (⟨n, ' ' :: c :: s⟩ : At).skip = ⟨n + 1, c :: s⟩ := by
  rw [skip_space (by decide), skip_cons h]

theorem part_skip {n : Nat} {p : ParsedPart} {w : Str} (h : PartText n p w) (m : Nat) (s : Str) : (⟨m, ' ' :: (w ++ s)⟩ : At).skip = ⟨m + 1, w ++ s⟩ := by
  obtain ⟨c, t, rfl, hb⟩ := part_start h
  exact skip_one (begins_not_space hb)

theorem reference_part {n : Nat} {p : ParsedPart} {ps : List ParsedPart} {w : Str} (h : ReferenceText n (p :: ps) w) : ∃ u v, w = u ++ v ∧ PartText n p u := by
  cases h with
  | one h => exact ⟨w, [], by simp, h⟩
  | cons h _ _ => exact ⟨_, _, rfl, h⟩

/-- A list is read in a reference. -/
theorem next_read {n : Nat} {p : ParsedPart} {w rest : Str} {j : At} (h : PartText n p w) (hr : Quiet rest ∨ ∃ c t, rest = ' ' :: c :: t ∧ isSpace c = false ∧ c ∉ py"-–−")
    (hj : j.skip = ⟨n, w ++ rest⟩) : partOf p.kind j = some (p, ⟨n + w.length, rest⟩) := by
  rcases hr with hr | ⟨c, t, rfl, hc, hd⟩
  · exact part_read h hr.word (fun _ => hr.noRange) hj
  · refine part_read h ?_ (fun _ m => ?_) hj
    · rintro _ ⟨⟩
      decide
    · have : Fails dash (' ' :: c :: t) := fails_dash (by intro x hx; rw [first_space, first_cons hc] at hx; cases hx; exact hd)
      rw [this m]
      rfl

/-- What begins with a space and a list. -/
theorem part_follows {n : Nat} {q : ParsedPart} {qs : List ParsedPart} {v : Str} (h : ReferenceText n (q :: qs) v) (rest : Str) :
    ∃ c t, ' ' :: (v ++ rest) = ' ' :: c :: t ∧ isSpace c = false ∧ c ∉ py"-–−" := by
  obtain ⟨u, v, rfl, hp⟩ := reference_part h
  obtain ⟨c, t, rfl, hb⟩ := part_start hp
  refine ⟨c, t ++ v ++ rest, by simp, begins_not_space hb, ?_⟩
  have h1 : ∀ x ∈ py"-–−", isAsciiDigit x = false ∧ isLowerAz x = false ∧ x ≠ '(' := by decide +kernel
  intro hm
  obtain ⟨a, b, d⟩ := h1 c hm
  revert hb
  cases q.kind <;> simp [Begins, a, b, d]

theorem start_fails {n m : Nat} {p : ParsedPart} {w rest : Str} {j : At} (h : PartText n p w) (hj : j.skip = ⟨m, w ++ rest⟩) {k : PartKind}
    (hk : ∀ c, Begins p.kind c → ¬ Begins k c) : partOf k j = none := by
  obtain ⟨c, t, rfl, hb⟩ := part_start h
  exact fails_at_skip (fails_start (begins_not_space hb) (hk c hb)) hj

theorem digit_lower {c : Char} (h : isAsciiDigit c = true) : ¬ isLowerAz c = true := by rw [digit_not_lower' h]; simp

theorem lower_digit {c : Char} (h : isLowerAz c = true) : ¬ isAsciiDigit c = true := by rw [lower_not_ascii h]; simp

theorem anySubpoint_read {n : Nat} {p : ParsedPart} {w rest : Str} {j : At} (h : PartText n p w) (hr : Quiet rest)
    (hk : p.kind = .alphabeticSubpoint ∨ p.kind = .numericSubpoint) (hj : j.skip = ⟨n, w ++ rest⟩) :
    anySubpoint j = some (p, ⟨n + w.length, rest⟩) := by
  have h1 := next_read h (.inl hr) hj
  rcases hk with hk | hk
  · rw [hk] at h1
    exact or_left h1
  · have h2 : partOf .alphabeticSubpoint j = none := start_fails h hj (by rw [hk]; exact fun c => digit_lower)
    rw [hk] at h1
    exact (or_right h2).trans h1

theorem anyPoint_read {n : Nat} {p : ParsedPart} {w rest : Str} {j : At} (h : PartText n p w)
    (hr : Quiet rest ∨ ∃ c t, rest = ' ' :: c :: t ∧ isSpace c = false ∧ c ∉ py"-–−")
    (hk : p.kind = .alphabeticPoint ∨ p.kind = .numericPoint) (hj : j.skip = ⟨n, w ++ rest⟩) :
    anyPoint j = some (p, ⟨n + w.length, rest⟩) := by
  have h1 := next_read h hr hj
  rcases hk with hk | hk
  · rw [hk] at h1
    exact or_left h1
  · have h2 : partOf .alphabeticPoint j = none := start_fails h hj (by rw [hk]; exact fun c => digit_lower)
    rw [hk] at h1
    exact (or_right h2).trans h1

theorem subpoint_read {n : Nat} {p : ParsedPart} {ps : List ParsedPart} {w rest : Str} {j : At} (h : ReferenceText n (p :: ps) w) (hr : Quiet rest)
    (hk : p.kind = .alphabeticSubpoint ∨ p.kind = .numericSubpoint) (hj : j.skip = ⟨n, w ++ rest⟩) :
    refWithSubpoint j = some (p :: ps, ⟨n + w.length, rest⟩) := by
  cases h with
  | one h =>
    unfold refWithSubpoint
    rw [bind_some (anySubpoint_read h hr hk hj)]
    rfl
  | cons _ hu _ => rcases hk with hk | hk <;> rw [hk] at hu <;> exact hu.elim

theorem no_subpoint {s : Str} (h : ∀ k, Fails (partOf k) s) : Fails refWithSubpoint s :=
  Fails.bind (Fails.or (h .alphabeticSubpoint) (h .numericSubpoint))

theorem no_point {s : Str} (h : ∀ k, Fails (partOf k) s) : Fails refWithPoint s :=
  Fails.bind (Fails.or (h .alphabeticPoint) (h .numericPoint))

theorem no_paragraph {s : Str} (h : ∀ k, Fails (partOf k) s) : Fails refWithParagraph s := Fails.bind (h .paragraph)

theorem point_read {n : Nat} {p : ParsedPart} {ps : List ParsedPart} {w rest : Str} {j : At} (h : ReferenceText n (p :: ps) w) (hr : Quiet rest)
    (hk : p.kind = .alphabeticPoint ∨ p.kind = .numericPoint) (hj : j.skip = ⟨n, w ++ rest⟩) :
    refWithPoint j = some (p :: ps, ⟨n + w.length, rest⟩) := by
  unfold refWithPoint
  cases h with
  | one h =>
    rw [bind_some (anyPoint_read h (.inl hr) hk hj), bind_some (opt_none (no_subpoint hr.parts _))]
    rfl
  | @cons _ _ w q qs v h hu hs =>
    have hu' : q.kind = .alphabeticSubpoint ∨ q.kind = .numericSubpoint := by rcases hk with hk | hk <;> rw [hk] at hu <;> exact hu
    have e0 : w ++ ' ' :: v ++ rest = w ++ ' ' :: (v ++ rest) := by simp
    rw [e0] at hj
    obtain ⟨u, v', hv, hp⟩ := reference_part hs
    have hsk : (⟨n + w.length, ' ' :: (v ++ rest)⟩ : At).skip = ⟨n + w.length + 1, v ++ rest⟩ := by
      rw [hv, List.append_assoc]; exact part_skip hp _ _
    rw [bind_some (anyPoint_read h (.inr (part_follows hs rest)) hk hj), bind_some (opt_some (subpoint_read hs hr hu' hsk))]
    have e1 : n + (w ++ ' ' :: v).length = n + w.length + 1 + v.length := by simp; omega
    rw [e1]
    rfl

theorem paragraph_read {n : Nat} {p : ParsedPart} {ps : List ParsedPart} {w rest : Str} {j : At} (h : ReferenceText n (p :: ps) w) (hr : Quiet rest)
    (hk : p.kind = .paragraph) (hj : j.skip = ⟨n, w ++ rest⟩) : refWithParagraph j = some (p :: ps, ⟨n + w.length, rest⟩) := by
  unfold refWithParagraph
  cases h with
  | one h =>
    have h1 := next_read h (.inl hr) hj
    rw [hk] at h1
    have h2 : paragraphReference j = some (p, ⟨n + w.length, rest⟩) := h1
    rw [bind_some h2, bind_some (opt_none (no_point hr.parts _))]
    rfl
  | @cons _ _ w q qs v h hu hs =>
    have hu' : q.kind = .alphabeticPoint ∨ q.kind = .numericPoint := by rw [hk] at hu; exact hu
    have e0 : w ++ ' ' :: v ++ rest = w ++ ' ' :: (v ++ rest) := by simp
    rw [e0] at hj
    obtain ⟨u, v', hv, hp⟩ := reference_part hs
    have hsk : (⟨n + w.length, ' ' :: (v ++ rest)⟩ : At).skip = ⟨n + w.length + 1, v ++ rest⟩ := by
      rw [hv, List.append_assoc]; exact part_skip hp _ _
    have h1 := next_read h (.inr (part_follows hs rest)) hj
    rw [hk] at h1
    have h2 : paragraphReference j = some (p, ⟨n + w.length, ' ' :: (v ++ rest)⟩) := h1
    rw [bind_some h2, bind_some (opt_some (point_read hs hr hu' hsk))]
    have e1 : n + (w ++ ' ' :: v).length = n + w.length + 1 + v.length := by simp; omega
    rw [e1]
    rfl

/-- A reference is read. -/
theorem reference_read {n : Nat} {ps : List ParsedPart} {w rest : Str} (h : ReferenceText n ps w) (hr : Quiet rest) :
    reference ⟨n, w ++ rest⟩ = some ((ps, ↑n, ↑(n + w.length)), ⟨n + w.length, rest⟩) := by
  obtain ⟨p, ps, rfl⟩ : ∃ p ps', ps = p :: ps' := by cases h <;> exact ⟨_, _, rfl⟩
  obtain ⟨u, v, hw, hp⟩ := reference_part h
  obtain ⟨c, t, hc, hb⟩ := part_start hp
  have hs := begins_not_space hb
  have hsk : (⟨n, w ++ rest⟩ : At).skip = ⟨n, w ++ rest⟩ := by rw [hw, hc]; exact skip_cons hs n
  have hsk' : (⟨n, w ++ rest⟩ : At).skip = ⟨n, u ++ (v ++ rest)⟩ := by rw [hsk, hw, List.append_assoc]
  suffices hm : Peg.or refWithArticleWithParagraph (Peg.or refWithArticleNoParagraph (Peg.or refWithParagraph (Peg.or refWithPoint refWithSubpoint)))
      ⟨n, w ++ rest⟩ = some (p :: ps, ⟨n + w.length, rest⟩) by
    unfold reference located
    rw [hsk, hm]
  have other : partOf .article ⟨n, w ++ rest⟩ = none →
      Peg.or refWithParagraph (Peg.or refWithPoint refWithSubpoint) ⟨n, w ++ rest⟩ = some (p :: ps, ⟨n + w.length, rest⟩) →
      Peg.or refWithArticleWithParagraph (Peg.or refWithArticleNoParagraph (Peg.or refWithParagraph (Peg.or refWithPoint refWithSubpoint)))
        ⟨n, w ++ rest⟩ = some (p :: ps, ⟨n + w.length, rest⟩) := by
    intro ha h
    have ha' : articleReference ⟨n, w ++ rest⟩ = none := ha
    have h1 : refWithArticleWithParagraph ⟨n, w ++ rest⟩ = none := bind_none ha'
    have h2 : refWithArticleNoParagraph ⟨n, w ++ rest⟩ = none := bind_none ha'
    rw [or_right h1, or_right h2]
    exact h
  have nopar : (∀ c, Begins p.kind c → c ≠ '(') → refWithParagraph ⟨n, w ++ rest⟩ = none := by
    intro h
    have : paragraphReference ⟨n, w ++ rest⟩ = none := start_fails (k := .paragraph) hp hsk' h
    exact bind_none this
  have digit_open : ∀ c, isAsciiDigit c = true → c ≠ '(' := fun c h => ne_of_class h
  have lower_open : ∀ c, isLowerAz c = true → c ≠ '(' := fun c h => ne_of_class h
  cases hk : p.kind with
  | article =>
    cases h with
    | one h =>
      have h1 := next_read h (.inl hr) hsk
      rw [hk] at h1
      have h2 : articleReference ⟨n, w ++ rest⟩ = some (p, ⟨n + w.length, rest⟩) := h1
      have h3 : refWithArticleWithParagraph ⟨n, w ++ rest⟩ = none := by
        unfold refWithArticleWithParagraph
        rw [bind_some h2]
        exact bind_none (no_paragraph hr.parts _)
      have h4 : refWithArticleNoParagraph ⟨n, w ++ rest⟩ = some ([p], ⟨n + w.length, rest⟩) := by
        unfold refWithArticleNoParagraph
        rw [bind_some h2, bind_some (opt_none (no_point hr.parts _))]
        rfl
      rw [or_right h3]
      exact or_left h4
    | @cons _ _ w q qs x h hu hq =>
      rw [hk] at hu
      have e0 : w ++ ' ' :: x ++ rest = w ++ ' ' :: (x ++ rest) := by simp
      rw [e0] at hsk ⊢
      obtain ⟨y, z, hx, hy⟩ := reference_part hq
      have hsk2 : (⟨n + w.length, ' ' :: (x ++ rest)⟩ : At).skip = ⟨n + w.length + 1, x ++ rest⟩ := by
        rw [hx, List.append_assoc]; exact part_skip hy _ _
      have h1 := next_read h (.inr (part_follows hq rest)) hsk
      rw [hk] at h1
      have h2 : articleReference ⟨n, w ++ ' ' :: (x ++ rest)⟩ = some (p, ⟨n + w.length, ' ' :: (x ++ rest)⟩) := h1
      have e1 : n + (w ++ ' ' :: x).length = n + w.length + 1 + x.length := by simp; omega
      rw [e1]
      by_cases hqk : q.kind = .paragraph
      · refine or_left ?_
        unfold refWithArticleWithParagraph
        rw [bind_some h2, bind_some (paragraph_read hq hr hqk hsk2)]
        rfl
      · have hqk' : q.kind = .alphabeticPoint ∨ q.kind = .numericPoint := by
          rcases hu with h | h
          · exact absurd h hqk
          · exact h
        have h3 : refWithArticleWithParagraph ⟨n, w ++ ' ' :: (x ++ rest)⟩ = none := by
          unfold refWithArticleWithParagraph
          rw [bind_some h2]
          have : paragraphReference ⟨n + w.length, ' ' :: (x ++ rest)⟩ = none := by
            refine start_fails (k := .paragraph) (rest := z ++ rest) hy (by rw [hsk2, hx, List.append_assoc]) ?_
            rcases hqk' with h | h <;> rw [h]
            · exact lower_open
            · exact digit_open
          exact bind_none (bind_none this)
        rw [or_right h3]
        refine or_left ?_
        unfold refWithArticleNoParagraph
        rw [bind_some h2, bind_some (opt_some (point_read hq hr hqk' hsk2))]
        rfl
  | paragraph =>
    refine other (start_fails hp hsk' (by rw [hk]; rintro _ rfl; unfold Begins; decide)) ?_
    exact or_left (paragraph_read h hr hk hsk)
  | alphabeticPoint =>
    refine other (start_fails hp hsk' (by rw [hk]; exact fun c => lower_digit)) ?_
    rw [or_right (nopar (by rw [hk]; exact lower_open))]
    exact or_left (point_read h hr (.inl hk) hsk)
  | numericPoint =>
    refine other (by have := point_no_article (rest := v ++ rest) hp (.inl hk) n; rw [hw, List.append_assoc]; exact this) ?_
    rw [or_right (nopar (by rw [hk]; exact digit_open))]
    exact or_left (point_read h hr (.inr hk) hsk)
  | alphabeticSubpoint =>
    refine other (start_fails hp hsk' (by rw [hk]; exact fun c => lower_digit)) ?_
    rw [or_right (nopar (by rw [hk]; exact lower_open))]
    have h1 : anyPoint ⟨n, w ++ rest⟩ = none := by
      have a : alphabeticPointReference ⟨n, w ++ rest⟩ = none := (subpoint_no_point hp hsk').1 hk
      have b : numericPointReference ⟨n, w ++ rest⟩ = none := start_fails (k := .numericPoint) hp hsk' (by rw [hk]; exact fun c => lower_digit)
      exact (or_right a).trans b
    have h2 : refWithPoint ⟨n, w ++ rest⟩ = none := bind_none h1
    rw [or_right h2]
    exact subpoint_read h hr (.inl hk) hsk
  | numericSubpoint =>
    refine other (by have := point_no_article (rest := v ++ rest) hp (.inr hk) n; rw [hw, List.append_assoc]; exact this) ?_
    rw [or_right (nopar (by rw [hk]; exact digit_open))]
    have h1 : anyPoint ⟨n, w ++ rest⟩ = none := by
      have a : alphabeticPointReference ⟨n, w ++ rest⟩ = none := start_fails (k := .alphabeticPoint) hp hsk' (by rw [hk]; exact fun c => digit_lower)
      have b : numericPointReference ⟨n, w ++ rest⟩ = none := (subpoint_no_point hp hsk').2 hk
      exact (or_right a).trans b
    have h2 : refWithPoint ⟨n, w ++ rest⟩ = none := bind_none h1
    rw [or_right h2]
    exact subpoint_read h hr (.inr hk) hsk

end Verif.ActGrammar
