import Verif.Proofs.Mentions
import Verif.Spec.Changes

/-! # The pieces of sentences that change the law are read -/

namespace Verif.ActGrammar

open Spec Peg

variable {α β : Type}

/-! ## Reading at a place -/

/-- A text at a place is read before the rest. -/
def ReadsAt (n : Nat) (p : Peg α) (w rest : Str) (a : α) : Prop := p ⟨n, w ++ rest⟩ = some (a, ⟨n + w.length, rest⟩)

theorem _root_.Verif.Peg.Reads.at {p : Peg α} {w rest : Str} {a : α} (h : Reads p w rest a) (n : Nat) : ReadsAt n p w rest a := h n

theorem ReadsAt.bind {n : Nat} {p : Peg α} {f : α → Peg β} {u v rest : Str} {a : α} {b : β} (h : ReadsAt n p u (v ++ rest) a)
    (hf : ReadsAt (n + u.length) (f a) v rest b) : ReadsAt n (p >>= f) (u ++ v) rest b := by
  unfold ReadsAt at *
  rw [List.append_assoc, bind_some h, hf, List.length_append, Nat.add_assoc]

theorem ReadsAt.done {n : Nat} {p : Peg α} {f : α → Peg β} {u rest : Str} {a : α} {b : β} (h : ReadsAt n p u rest a)
    (hf : ∀ m, f a ⟨m, rest⟩ = some (b, ⟨m, rest⟩)) : ReadsAt n (p >>= f) u rest b := by
  unfold ReadsAt at *
  rw [bind_some h, hf]

theorem ReadsAt.left {n : Nat} {p q : Peg α} {w rest : Str} {a : α} (h : ReadsAt n p w rest a) : ReadsAt n (Peg.or p q) w rest a := or_left h

theorem ReadsAt.right {n : Nat} {p q : Peg α} {w rest : Str} {a : α} (hp : Fails p (w ++ rest)) (h : ReadsAt n q w rest a) :
    ReadsAt n (Peg.or p q) w rest a := by
  unfold ReadsAt at *
  rw [or_right (hp n), h]

/-! ## Words -/

/-- A text that is not one word. -/
theorem reads_text {t rest : Str} (h : (t.head?.any (fun c => !isSpace c) && !isName t) = true) : Reads (token t) t rest t := by
  rw [Bool.and_eq_true, Bool.not_eq_true'] at h
  cases t with
  | nil => cases h.1
  | cons c t => exact reads_word (c := c) rfl (by simpa using h.1) (.inl h.2)

/-- A word. -/
theorem reads_name {t rest : Str} (h : t.head?.any (fun c => !isSpace c) = true) (hr : ∀ c ∈ rest.head?, isNameChar c = false) :
    Reads (token t) t rest t := by
  cases t with
  | nil => cases h
  | cons c t => exact reads_word (c := c) rfl (by simpa using h) (.inr hr)

theorem name_chars {t : Str} (h : isName t = true) : ∀ c ∈ t, isNameChar c = true := by
  intro c hc
  unfold isName at h
  rw [Bool.and_eq_true, List.all_eq_true] at h
  have := h.1 c hc
  unfold isNameChar
  rw [this]
  rfl

/-- The longer one of two texts that begin alike. -/
theorem prefix_cases {u t rest : Str} (h : u <+: t ++ rest) : u <+: t ∨ ∃ c e, u = t ++ c :: e ∧ rest.head? = some c := by
  induction t generalizing u with
  | nil =>
    cases u with
    | nil => exact .inl (List.nil_prefix)
    | cons c e =>
      obtain ⟨r, hr⟩ := h
      rw [List.nil_append] at hr
      exact .inr ⟨c, e, rfl, by rw [← hr]; rfl⟩
  | cons a t ih =>
    cases u with
    | nil => exact .inl (List.nil_prefix)
    | cons b u =>
      rw [List.cons_append, List.cons_prefix_cons] at h
      obtain ⟨rfl, h⟩ := h
      rcases ih h with h | ⟨c, e, rfl, hc⟩
      · exact .inl (List.cons_prefix_cons.mpr ⟨rfl, h⟩)
      · exact .inr ⟨c, e, rfl, hc⟩

/-- Another word is not read. -/
theorem fails_other_name {u t rest : Str} (hu : isName u = true) (ht : isName t = true) (hs : t.head?.any (fun c => !isSpace c) = true) (hne : u ≠ t)
    (hr : ∀ c ∈ rest.head?, isNameChar c = false) : Fails (token u) (t ++ rest) := by
  intro n
  unfold token
  have hsk : (⟨n, t ++ rest⟩ : At).skip = ⟨n, t ++ rest⟩ := by
    cases t with
    | nil => cases hs
    | cons c t => exact skip_cons (by simpa using hs) n
  simp only [hsk]
  by_cases hp : u <+: t ++ rest
  · rcases prefix_cases hp with h | ⟨c, e, rfl, hc⟩
    · obtain ⟨e, rfl⟩ := h
      cases e with
      | nil => exact absurd (by simp) hne
      | cons c e =>
        have hc := name_chars ht c (by simp)
        simp [hu, hc]
    · have h1 := name_chars hu c (by simp)
      rw [hr c hc] at h1
      cases h1
  · have : u.isPrefixOf (t ++ rest) = false := by
      rw [← Bool.not_eq_true, List.isPrefixOf_iff_prefix]
      exact hp
    simp [this]

/-- One of several words. -/
theorem reads_names {ts : List Str} {t rest : Str} (ht : t ∈ ts) (hn : ts.all (fun u => isName u && u.head?.any fun c => !isSpace c) = true)
    (hr : ∀ c ∈ rest.head?, isNameChar c = false) : Reads (tokens ts) t rest t := by
  have each : ∀ u ∈ ts, isName u = true ∧ u.head?.any (fun c => !isSpace c) = true := by
    intro u hu
    have := List.all_eq_true.mp hn u hu
    rwa [Bool.and_eq_true] at this
  clear hn
  have hts := each t ht
  induction ts with
  | nil => cases ht
  | cons u ts ih =>
    by_cases hu : u = t
    · subst hu
      exact .left (reads_name hts.2 hr)
    · refine .right (fails_other_name (each u (List.mem_cons_self ..)).1 hts.1 hts.2 hu hr) (ih ?_ fun x hx => each x (List.mem_cons_of_mem _ hx))
      rcases List.mem_cons.mp ht with h | h
      · exact absurd h.symm hu
      · exact h

/-- None of several texts. -/
theorem fails_texts {ts : List Str} {s : Str} (h : ts.all (fun t => !t.isPrefixOf (s.dropWhile isSpace)) = true) : Fails (tokens ts) s :=
  fails_tokens fun t ht n => token_not_prefix (by simpa using List.all_eq_true.mp h t ht)

theorem fails_text {t s : Str} (h : t.isPrefixOf (s.dropWhile isSpace) = false) : Fails (token t) s := fun _ => token_not_prefix h

theorem fails_space {t s : Str} (h : Fails (token t) s) : Fails (token t) (' ' :: s) := by
  intro n
  rw [token_space]
  exact h _

/-- A word comes after this. -/
theorem no_name {c : Char} {s : Str} (h : isNameChar c = false) : ∀ d ∈ (c :: s).head?, isNameChar d = false := by
  rintro _ ⟨⟩
  exact h

theorem no_name_space {s : Str} : ∀ d ∈ (' ' :: s).head?, isNameChar d = false := no_name (by decide +kernel)

/-! ## After spaces -/

/-- What is read after spaces. -/
theorem _root_.Verif.Peg.Reads.skip {p : Peg α} {w rest : Str} {a : α} (h : Reads p w rest a) (hp : ∀ i, p i.skip = p i) {n : Nat} {j : At}
    (hj : j.skip = ⟨n, w ++ rest⟩) : p j = some (a, ⟨n + w.length, rest⟩) := by
  rw [← hp, hj, h]

theorem tokens_skip (ts : List Str) (i : At) : tokens ts i.skip = tokens ts i := by
  induction ts with
  | nil => rfl
  | cons t ts ih => exact or_congr (token_skip t i) ih

theorem space_skip {c : Char} {s : Str} (h : isSpace c = false) (n : Nat) : (⟨n, ' ' :: c :: s⟩ : At).skip = ⟨n + 1, c :: s⟩ := by
  rw [skip_space (by decide), skip_cons h]

theorem name_space {t rest : Str} (h : t.head?.any (fun c => !isSpace c) = true) (hr : ∀ c ∈ rest.head?, isNameChar c = false) :
    Reads (token t) (' ' :: t) rest t := (reads_name h hr).token_space

theorem names_space {ts : List Str} {t rest : Str} (ht : t ∈ ts) (hn : ts.all (fun u => isName u && u.head?.any fun c => !isSpace c) = true)
    (hr : ∀ c ∈ rest.head?, isNameChar c = false) : Reads (tokens ts) (' ' :: t) rest t := by
  intro n
  rw [List.cons_append, tokens_space, reads_names ht hn hr]
  simp
  omega

/-! ## Quotations -/

theorem quote_from {x w : Str} (h : QuoteText x w) :
    ∃ q, Quoted q x ∧ ∀ {rest : Str} {n : Nat} {j : At}, j.skip = ⟨n, w ++ rest⟩ → quote j = some (q, ⟨n + w.length, rest⟩) := by
  obtain ⟨u, rfl, hu, hs⟩ := h
  obtain ⟨i, hi, hr⟩ := quoteIn_reads hu
  refine ⟨_, ⟨i, rfl, by rw [hi]; exact hs⟩, fun {rest n j} hj => ?_⟩
  have hl : u.length ≤ j.rest.length := by
    have h1 : j.skip.rest.length ≤ j.rest.length := by simp [At.skip, At.move]
    rw [hj] at h1
    simp at h1
    omega
  have h1 := hr _ hl rest n
  rw [← hj] at h1
  unfold quote
  refine Eq.trans ?_ h1
  unfold quoteIn
  exact (rule_skip _ j).symm

theorem quote_head {x w : Str} (h : QuoteText x w) : ∃ t, w = '„' :: t := by
  obtain ⟨u, rfl, _⟩ := h
  exact ⟨_, rfl⟩

theorem az_skip (i : At) : az i.skip = az i := rule_skip _ i

theorem reads_az {b : Str} (hb : b ∈ [py"a ", py"az "]) (rest : Str) : Reads az b rest b := by
  simp only [List.mem_cons, List.not_mem_nil, or_false] at hb
  have h : ((Regex.seq (.char 'a') (.seq (.opt (.char 'z')) (.char ' '))).ends (b ++ rest)).head? = some b.length := by
    rcases hb with rfl | rfl <;> simp [Regex.ends, Regex.char]
  refine (Reads.matches h).rule (c := 'a') ?_ (by decide +kernel)
  rcases hb with rfl | rfl <;> rfl

theorem fails_az {c : Char} {s : Str} (h : isSpace c = false) (hc : c ≠ 'a') : Fails az (c :: s) := by
  refine Fails.rule ?_
  rw [dropWhile_cons_of h]
  refine fails_pattern (seq_none (set_none ?_))
  rintro _ ⟨⟩
  simpa using hc

/-- A noun may begin before it. -/
theorem noun_read {b s : Str} {c : Char} (hb : Noun b) (hc : isSpace c = false) (ha : c ≠ 'a') {n : Nat} {j : At}
    (hj : j.skip = ⟨n, b ++ c :: s⟩) : ∃ o k, opt az j = some (o, k) ∧ k.skip = ⟨n + b.length, c :: s⟩ := by
  rcases List.mem_cons.mp hb with rfl | hb
  · refine ⟨none, j, opt_none ?_, hj⟩
    rw [← az_skip, hj]
    exact fails_az hc ha n
  · refine ⟨_, _, opt_some ((reads_az hb _).skip az_skip hj), skip_cons hc _⟩

/-! ## Texts that are replaced -/

theorem szoveg_names : [py"szövegrészek", py"szövegrész"].all (fun u => isName u && u.head?.any fun c => !isSpace c) = true := by decide +kernel

theorem replacement_read {b x y w rest : Str} (hb : Noun b) (h : ReplacedText x y w) {n : Nat} {j : At} (hj : j.skip = ⟨n, b ++ (w ++ rest)⟩) :
    ∃ q r, Quoted q x ∧ Quoted r y ∧ replacement j = some ((q, r), ⟨n + b.length + w.length, rest⟩) := by
  obtain ⟨u, p, e, a, v, rfl, hu, hp, he, ha, hv⟩ := h
  obtain ⟨q, hq, hqr⟩ := quote_from hu
  obtain ⟨r, hr, hrr⟩ := quote_from hv
  obtain ⟨u', rfl⟩ := quote_head hu
  obtain ⟨v', rfl⟩ := quote_head hv
  refine ⟨q, r, hq, hr, ?_⟩
  simp only [List.append_assoc] at hj
  obtain ⟨o, k, h1, h2⟩ := noun_read hb (c := '„') (by decide +kernel) (by decide) hj
  have h3 := hqr h2
  have hp' : p ∈ [py"szövegrészek", py"szövegrész"] := by simp at hp ⊢; exact hp.symm
  have h4 := names_space (rest := ' ' :: e ++ (' ' :: a ++ ('„' :: v' ++ rest))) hp' szoveg_names no_name_space (n + b.length + ('„' :: u').length)
  have h5 := names_space (rest := ' ' :: a ++ ('„' :: v' ++ rest)) he (by decide +kernel) no_name_space
    (n + b.length + ('„' :: u').length + (' ' :: p).length)
  have hj2 : (⟨n + b.length + ('„' :: u').length + (' ' :: p).length + (' ' :: e).length, ' ' :: a ++ ('„' :: v' ++ rest)⟩ : At).skip =
      ⟨n + b.length + ('„' :: u').length + (' ' :: p).length + (' ' :: e).length + 1, a ++ '„' :: (v' ++ rest)⟩ := by
    rw [List.cons_append, skip_space (by decide)]
    simp only [List.mem_cons, List.not_mem_nil, or_false] at ha
    rcases ha with rfl | rfl | rfl <;> exact skip_cons (by decide +kernel) _
  obtain ⟨o2, k2, h6, h7⟩ := noun_read ha (c := '„') (by decide +kernel) (by decide) hj2
  have h8 := hrr h7
  unfold replacement
  rw [bind_some h1, bind_some h3]
  refine (bind_some h4).trans ((bind_some h5).trans ((bind_some h6).trans ((bind_some h8).trans ?_)))
  have el : n + b.length + ('„' :: u').length + (' ' :: p).length + (' ' :: e).length + 1 + a.length + ('„' :: v').length =
      n + b.length + ('„' :: u' ++ ' ' :: p ++ ' ' :: e ++ ' ' :: a ++ '„' :: v').length := by
    simp
    omega
  rw [el]
  rfl

theorem replaced_head {x y w : Str} (h : ReplacedText x y w) : ∃ t, w = '„' :: t := by
  obtain ⟨u, p, e, a, v, rfl, hu, _⟩ := h
  obtain ⟨t, rfl⟩ := quote_head hu
  exact ⟨_, rfl⟩

theorem mark_begun (s : Str) : Begun ('„' :: s) := by
  refine ⟨⟨_, _, rfl, by decide +kernel⟩, ?_, fails_pattern (seq_none (set_none (by rintro _ ⟨⟩; decide)))⟩
  refine fails_tokens fun t ht => ?_
  have : ∀ t ∈ joiningWords, ∃ a, t.head? = some a ∧ a ≠ '„' := by decide
  obtain ⟨a, ha, hn⟩ := this t ht
  refine fails_token ha fun c hc => ?_
  rw [first_cons (by decide +kernel)] at hc
  cases hc
  exact hn.symm

theorem fails_separator {s : Str} (h : NotFirst (py",;évi") s) : Fails listSeparator s := by
  have h' : ∀ a ∈ py",;évi", ∀ {t : Str}, t.head? = some a → Fails (token t) (s.dropWhile isSpace) := fun a ha t ht =>
    fails_token ht fun c hc he => by
      rw [first_dropWhile] at hc
      exact h c hc (he ▸ ha)
  have hc : Fails (tokens [py",", py";"]) (s.dropWhile isSpace) := by
    refine fails_tokens fun t ht => ?_
    simp only [List.mem_cons, List.not_mem_nil, or_false] at ht
    rcases ht with rfl | rfl
    · exact h' ',' (by decide) rfl
    · exact h' ';' (by decide) rfl
  have hw : Fails (tokens [py"és", py"valamint", py"illetve", py"vagy"]) (s.dropWhile isSpace) := by
    refine fails_tokens fun t ht => ?_
    simp only [List.mem_cons, List.not_mem_nil, or_false] at ht
    rcases ht with rfl | rfl | rfl | rfl
    · exact h' 'é' (by decide) rfl
    · exact h' 'v' (by decide) rfl
    · exact h' 'i' (by decide) rfl
    · exact h' 'v' (by decide) rfl
  refine Fails.rule (Fails.or ?_ hc.bind)
  exact fun n => (bind_some (hc.opt n)).trans (hw.bind n)

/-- The word after a text, if there is any. -/
theorem replacing_read {e rest : Str} (he : ReplacingWord e) (hr : ∀ c ∈ rest.head?, isNameChar c = false) :
    Reads (tokens [py"szöveggel", py"szöveg", py"szövegrész"]) e rest (e.drop 1) ∧ Fails listSeparator (e ++ rest) ∧ e ≠ [] := by
  unfold ReplacingWord at he
  simp only [List.mem_cons, List.not_mem_nil, or_false] at he
  have hn : [py"szöveggel", py"szöveg", py"szövegrész"].all (fun u => isName u && u.head?.any fun c => !isSpace c) = true := by decide +kernel
  rcases he with rfl | rfl | rfl
  all_goals
    refine ⟨names_space (by decide) hn hr, fails_separator ?_, by decide⟩
    intro c hc
    rw [List.cons_append, first_space] at hc
    exact notFirst_cons (c := 's') (by decide +kernel) (by decide) c hc

theorem part_of_amendment {b x y w e rest : Str} (hb : Noun b) (h : ReplacedText x y w)
    (he : ReplacingWord e ∧ (∀ c ∈ rest.head?, isNameChar c = false) ∨ e = [] ∧ ∀ n, (listSeparator ⟨n, rest⟩).isSome) {n : Nat} {j : At}
    (hj : j.skip = ⟨n, b ++ (w ++ (e ++ rest))⟩) :
    ∃ q, Quoted q.1 x ∧ Quoted q.2 y ∧ textAmendmentPart j = some (q, ⟨n + b.length + w.length + e.length, rest⟩) := by
  obtain ⟨q, r, hq, hr, h1⟩ := replacement_read (rest := e ++ rest) hb h (j := j.skip) (by rw [skip_skip]; exact hj)
  refine ⟨(q, r), hq, hr, ?_⟩
  unfold textAmendmentPart rule
  rw [bind_some h1]
  rcases he with ⟨he, hn⟩ | ⟨rfl, hs⟩
  · obtain ⟨h2, h3, _⟩ := replacing_read he hn
    have h4 : ∀ m, ahead listSeparator ⟨m, e ++ rest⟩ = none := fun m => by unfold ahead; rw [h3 m]; rfl
    have h5 : ∀ m, Peg.or (ahead listSeparator) (do
        let _ ← tokens [py"szöveggel", py"szöveg", py"szövegrész"]
        pure ()) ⟨m, e ++ rest⟩ = some ((), ⟨m + e.length, rest⟩) := fun m => by
      rw [or_right (h4 m)]
      exact bind_some (h2 m)
    exact bind_some (h5 _)
  · have h4 : ∀ m, ahead listSeparator ⟨m, rest⟩ = some ((), ⟨m, rest⟩) := fun m => by
      unfold ahead
      obtain ⟨v, hv⟩ := Option.isSome_iff_exists.mp (hs m)
      rw [hv]
      rfl
    exact bind_some (or_left (h4 _))

theorem separator_found {g rest : Str} (hg : SeparatorText g) (hr : Begun rest) (n : Nat) : (listSeparator ⟨n, g ++ rest⟩).isSome := by
  obtain ⟨c, o, a, rfl, hc, ho, ha, hn⟩ := hg
  have h := reads_listSeparator hc ho ha hn hr n
  have e : c ++ o ++ a ++ (py" ") ++ rest = c ++ o ++ (a ++ (py" ") ++ rest) := by simp
  rw [e, h]
  rfl

theorem separator_no_name {g : Str} (hg : SeparatorText g) (rest : Str) : ∀ c ∈ (g ++ rest).head?, isNameChar c = false := by
  obtain ⟨c, o, a, rfl, hc, ho, ha, hn⟩ := hg
  simp only [List.mem_cons, List.not_mem_nil, or_false] at hc ho
  have no : isNameChar ' ' = false ∧ isNameChar ',' = false ∧ isNameChar ';' = false := by decide +kernel
  rcases hc with rfl | rfl | rfl
  · rcases ho with rfl | rfl | rfl | rfl | rfl
    · exact absurd rfl (hn rfl)
    all_goals rintro _ ⟨⟩; exact no.1
  · rintro _ ⟨⟩; exact no.2.1
  · rintro _ ⟨⟩; exact no.2.2

theorem replacedTexts_head {l : List (Str × Str)} {v : Str} (h : ReplacedTexts l v) : ∃ t, v = '„' :: t := by
  cases h with
  | one h _ => obtain ⟨t, rfl⟩ := replaced_head h; exact ⟨_, rfl⟩
  | cons h _ _ _ => obtain ⟨t, rfl⟩ := replaced_head h; exact ⟨_, rfl⟩

theorem skip_shorter {j : At} {n : Nat} {s : Str} (h : j.skip = ⟨n, s⟩) : s.length ≤ j.rest.length := by
  obtain ⟨sp, _, h1, _⟩ := skip_spaces j
  rw [h1, h]
  simp

theorem replaced_steps {l : List (Str × Str)} {v : Str} (h : ReplacedTexts l v) : ∀ {b rest : Str} {n : Nat} {j : At}, Noun b →
    (∀ c ∈ rest.head?, isNameChar c = false) → NotFirst (py",;évi") rest → j.skip = ⟨n, b ++ (v ++ rest)⟩ →
    ∃ qs, Steps (item textAmendmentPart) j qs ⟨n + b.length + v.length, rest⟩ ∧ Both (fun q x => Quoted q.1 x.1 ∧ Quoted q.2 x.2) qs l ∧ qs ≠ [] := by
  induction h with
  | @one x y w e h he =>
    intro b rest n j hb hr hs hj
    rw [List.append_assoc] at hj
    obtain ⟨q, h1, h2, h3⟩ := part_of_amendment hb h (.inl ⟨he, hr⟩) hj
    have h4 : item textAmendmentPart j = some (q, ⟨n + b.length + (w ++ e).length, rest⟩) := by
      unfold item
      rw [bind_some h3, List.length_append, ← Nat.add_assoc]
      exact bind_some (separated_nothing hs _)
    refine ⟨[q], .cons h4 ?_ (.nil _), .cons ⟨h1, h2⟩ .nil, by simp⟩
    have := skip_shorter hj
    obtain ⟨t, rfl⟩ := replaced_head h
    simp at this ⊢
    omega
  | @cons x y w e g l v h he hg hs ih =>
    intro b rest n j hb hr hse hj
    simp only [List.append_assoc] at hj
    obtain ⟨t, ht⟩ := replacedTexts_head hs
    have hbg : Begun (v ++ rest) := by rw [ht]; exact mark_begun _
    obtain ⟨q, h1, h2, h3⟩ := part_of_amendment (e := e) (rest := g ++ (v ++ rest)) hb h (by
      rcases he with rfl | he
      · exact .inr ⟨rfl, separator_found hg hbg⟩
      · exact .inl ⟨he, separator_no_name hg _⟩) hj
    obtain ⟨k, h4, h5, h6⟩ := separated_begun hg hbg (n + b.length + w.length + e.length)
    have h7 : item textAmendmentPart j = some (q, k) := by
      unfold item
      rw [bind_some h3, bind_some h4]
      rfl
    obtain ⟨qs, h8, h9, _⟩ := ih (b := []) (.head _) hr hse h5
    refine ⟨q :: qs, .cons h7 ?_ ?_, .cons ⟨h1, h2⟩ h9, by simp⟩
    · have := skip_shorter hj
      obtain ⟨t, rfl⟩ := replaced_head h
      simp at this h6 ⊢
      omega
    · have e : n + b.length + (w ++ e ++ g ++ v).length = n + b.length + w.length + e.length + g.length + ([] : Str).length + v.length := by
        simp
        omega
      rw [e]
      exact h8

/-! ## Texts that are repealed -/

theorem repealedText_read {b x w e rest : Str} (hb : Noun b) (h : QuoteText x w) (he : e ∈ [py"", py" szövegrész"])
    (hr : ∀ c ∈ rest.head?, isNameChar c = false) (hn : NotFirst (py"s") rest) {n : Nat} {j : At} (hj : j.skip = ⟨n, b ++ (w ++ (e ++ rest))⟩) :
    ∃ q, Quoted q x ∧ repealedText j = some (q, ⟨n + b.length + w.length + e.length, rest⟩) := by
  obtain ⟨q, hq, hqr⟩ := quote_from h
  obtain ⟨w', rfl⟩ := quote_head h
  obtain ⟨o, k, h1, h2⟩ := noun_read hb (c := '„') (by decide +kernel) (by decide) hj
  have h3 := hqr h2
  refine ⟨q, hq, ?_⟩
  unfold repealedText
  rw [bind_some h1, bind_some h3]
  rcases List.mem_cons.mp he with rfl | he
  · have h4 : Fails (token (py"szövegrész")) rest := fails_token (a := 's') rfl fun c hc he => hn c hc (by simp [he])
    exact bind_some (h4.opt _)
  · simp only [List.mem_cons, List.not_mem_nil, or_false] at he
    subst he
    have h4 : Reads (token (py"szövegrész")) (py" szövegrész") rest (py"szövegrész") := name_space (by decide +kernel) hr
    exact bind_some (h4.opt _)

theorem repealedTexts_head {l : List Str} {v : Str} (h : RepealedTexts l v) : ∃ t, v = '„' :: t := by
  cases h with
  | one h _ => obtain ⟨t, rfl⟩ := quote_head h; exact ⟨_, rfl⟩
  | cons h _ _ _ => obtain ⟨t, rfl⟩ := quote_head h; exact ⟨_, rfl⟩

theorem separator_not_s {g : Str} (hg : SeparatorText g) (rest : Str) : NotFirst (py"s") (g ++ rest) := by
  obtain ⟨c, o, a, rfl, hc, ho, ha, hn⟩ := hg
  simp only [List.mem_cons, List.not_mem_nil, or_false] at hc ho
  have sp : ∀ {x : Char} {s : Str}, isSpace x = false → x ≠ 's' → NotFirst (py"s") (' ' :: x :: s) := by
    intro x s hx hn c hc
    rw [first_space, first_cons hx] at hc
    cases hc
    simpa using hn
  rcases hc with rfl | rfl | rfl
  · rcases ho with rfl | rfl | rfl | rfl | rfl
    · exact absurd rfl (hn rfl)
    all_goals exact sp (by decide +kernel) (by decide)
  · exact notFirst_cons (by decide +kernel) (by decide)
  · exact notFirst_cons (by decide +kernel) (by decide)

theorem repealed_steps {l : List Str} {v : Str} (h : RepealedTexts l v) : ∀ {b rest : Str} {n : Nat} {j : At}, Noun b →
    (∀ c ∈ rest.head?, isNameChar c = false) → NotFirst (py"s,;évi") rest → j.skip = ⟨n, b ++ (v ++ rest)⟩ →
    ∃ qs, Steps (item repealedText) j qs ⟨n + b.length + v.length, rest⟩ ∧ Both Quoted qs l ∧ qs ≠ [] := by
  induction h with
  | @one x w e h he =>
    intro b rest n j hb hr hs hj
    rw [List.append_assoc] at hj
    obtain ⟨q, h1, h3⟩ := repealedText_read hb h he hr (notFirst_sub hs (by decide)) hj
    have h4 : item repealedText j = some (q, ⟨n + b.length + (w ++ e).length, rest⟩) := by
      unfold item
      rw [bind_some h3, List.length_append, ← Nat.add_assoc]
      exact bind_some (separated_nothing (notFirst_sub hs (by decide)) _)
    refine ⟨[q], .cons h4 ?_ (.nil _), .cons h1 .nil, by simp⟩
    have := skip_shorter hj
    obtain ⟨t, rfl⟩ := quote_head h
    simp at this ⊢
    omega
  | @cons x w e g l v h he hg hs ih =>
    intro b rest n j hb hr hse hj
    simp only [List.append_assoc] at hj
    obtain ⟨t, ht⟩ := repealedTexts_head hs
    have hbg : Begun (v ++ rest) := by rw [ht]; exact mark_begun _
    obtain ⟨q, h1, h3⟩ := repealedText_read (e := e) (rest := g ++ (v ++ rest)) hb h he (separator_no_name hg _) (separator_not_s hg _) hj
    obtain ⟨k, h4, h5, h6⟩ := separated_begun hg hbg (n + b.length + w.length + e.length)
    have h7 : item repealedText j = some (q, k) := by
      unfold item
      rw [bind_some h3, bind_some h4]
      rfl
    obtain ⟨qs, h8, h9, _⟩ := ih (b := []) (.head _) hr hse h5
    refine ⟨q :: qs, .cons h7 ?_ ?_, .cons h1 h9, by simp⟩
    · have := skip_shorter hj
      obtain ⟨t, rfl⟩ := quote_head h
      simp at this h6 ⊢
      omega
    · have e : n + b.length + (w ++ e ++ g ++ v).length = n + b.length + w.length + e.length + g.length + ([] : Str).length + v.length := by
        simp
        omega
      rw [e]
      exact h8

/-! ## Acts with their titles -/

theorem plain_token {w rest : Str} (h : PlainText w rest) (hq : '„' ∉ w) : Reads anyToken w rest w := by
  cases h with
  | mark hc hd hs hn => exact reads_mark_token hs hc hd (by simp at hn; exact hn.1)
  | bracket _ => exact reads_mark_token (by decide) (by unfold hunLetter hunLower; decide +kernel) (by decide) (by decide)
  | ending hl hr =>
    refine reads_word_token (by decide) (fun x hx => ?_) hr
    rcases List.mem_cons.mp hx with rfl | hx
    · exact .inr rfl
    · exact hl x hx
  | quoted h => exact absurd (List.mem_append_left _ (List.mem_cons_self ..)) hq
  | word hw hl hf hr hs ha =>
    obtain ⟨c, t, rfl⟩ := List.exists_cons_of_ne_nil hw
    have hc : hunLetter c := by
      rcases hl c (List.mem_cons_self ..) with h | h
      · exact h
      · exact absurd h (hf c (by simp))
    exact reads_word_token (letter_not_space hc) hl hr
  | number hw hr h => exact reads_number_token hw fun c hc => (hr c hc).1
  | dotted hw _ _ _ => exact reads_number_token hw (by rintro _ ⟨⟩; decide)

/-- One word of a title. -/
def titleStep : Peg Str := do
  not (do
    let _ ← actReference
    not (token (py"hatálybalépésével összefüggő")))
  anyToken

theorem not_of_none {p : Peg α} {i : At} (h : p i = none) : not p i = some ((), i) := by
  unfold Peg.not
  rw [h]
  rfl

theorem not_of_some {p : Peg α} {i : At} {x : α × At} (h : p i = some x) : not p i = none := by
  unfold Peg.not
  rw [h]
  rfl

theorem titleStep_skip (i : At) : titleStep i.skip = titleStep i := by
  have h1 : (do let _ ← actReference; not (token (py"hatálybalépésével összefüggő")) : Peg Unit) i.skip =
      (do let _ ← actReference; not (token (py"hatálybalépésével összefüggő")) : Peg Unit) i := bind_congr (rule_skip _ i)
  unfold titleStep
  cases h : (do let _ ← actReference; not (token (py"hatálybalépésével összefüggő")) : Peg Unit) i with
  | some x => rw [bind_none (not_of_some (h1.trans h)), bind_none (not_of_some h)]
  | none =>
    rw [bind_some (not_of_none (h1.trans h)), bind_some (not_of_none h)]
    exact rule_skip _ i

theorem title_word {w rest : Str} (h : PlainText w rest) (hq : '„' ∉ w) : Reads titleStep w rest w := by
  intro n
  have h1 := plain_no_act h
  obtain ⟨c, t, rfl, hc⟩ := plain_not_space h
  have h2 : Fails actReference (c :: t ++ rest) := fails_actReference hc h1.1 h1.2
  unfold titleStep
  rw [bind_some (not_of_none (bind_none (h2 n))), plain_token h hq n]

theorem title_end {n : Nat} {a : ParsedActRef} {w rest : Str} (h : ActText n a w rest)
    (hr : Fails (token (py"hatálybalépésével összefüggő")) rest) : titleStep ⟨n, w ++ rest⟩ = none := by
  unfold titleStep
  refine bind_none (not_of_some (x := ((), ⟨n + w.length, rest⟩)) ?_)
  rw [bind_some (act_read h)]
  exact not_of_none (hr _)

theorem title_steps {t rest : Str} (h : TitleText t rest) : ∀ {n : Nat} {j : At}, j.skip = (⟨n, t ++ rest⟩ : At).skip →
    ∃ ws k, Steps titleStep j ws k ∧ k.skip = (⟨n + t.length, rest⟩ : At).skip := by
  induction h with
  | done => exact fun hj => ⟨[], _, .nil _, hj⟩
  | @space c t rest hc _ ih =>
    intro n j hj
    rw [List.cons_append, skip_space hc] at hj
    obtain ⟨ws, k, h1, h2⟩ := ih hj
    exact ⟨ws, k, h1, by rw [h2, List.length_cons, Nat.add_assoc, Nat.add_comm 1]⟩
  | @plain w t rest hw hq _ ih =>
    intro n j hj
    obtain ⟨c, u, rfl, hc⟩ := plain_not_space hw
    have hj' : j.skip = ⟨n, c :: u ++ (t ++ rest)⟩ := by rw [hj, List.append_assoc]; exact skip_cons hc n
    obtain ⟨ws, k, h1, h2⟩ := ih (n := n + (c :: u).length) (j := ⟨n + (c :: u).length, t ++ rest⟩) rfl
    refine ⟨(c :: u) :: ws, k, .cons ((title_word hw hq).skip titleStep_skip hj') ?_ h1, ?_⟩
    · have := skip_shorter hj'
      simp at this ⊢
      omega
    · rw [h2, List.length_append, Nat.add_assoc]

/-- An act is read with the title before it. -/
theorem act_phrase {n : Nat} {a : ParsedActRef} {w rest : Str} (h : ActPhrase n a w rest)
    (hr : Fails (token (py"hatálybalépésével összefüggő")) rest) {j : At} (hj : j.skip = (⟨n, w ++ rest⟩ : At).skip) :
    (do let _ ← actTitle; actReference : Peg ParsedActRef) j = some (a, ⟨n + w.length, rest⟩) := by
  obtain ⟨t, v, rfl, ht, hv⟩ := h
  have hj' : j.skip.skip = (⟨n, t ++ (v ++ rest)⟩ : At).skip := by rw [skip_skip, hj, List.append_assoc]
  obtain ⟨ws, k, h1, h2⟩ := title_steps ht hj'
  have hv' : (⟨n + t.length, v ++ rest⟩ : At).skip = ⟨n + t.length, v ++ rest⟩ := by
    obtain ⟨c, u, rfl, hc⟩ := act_start hv
    exact skip_cons (act_not_space hc) _
  rw [hv'] at h2
  have h3 : titleStep k = none := by
    rw [← titleStep_skip, h2]
    exact title_end hv hr
  have h4 : actTitle j = some (ws, k) := many_steps h1 h3
  rw [bind_some h4]
  have h5 : actReference k = actReference k.skip := (rule_skip _ k).symm
  rw [h5, h2, act_read hv, List.length_append, Nat.add_assoc]

theorem amendedAct_read {o p rest : Str} {a : ParsedActRef} (ho : o ∈ [py"A ", py"Az "]) (h : ActPhrase o.length a p rest)
    (hr : Fails (token (py"hatálybalépésével összefüggő")) rest) :
    amendedAct ⟨0, o ++ (p ++ rest)⟩ = some (a, ⟨o.length + p.length, rest⟩) := by
  simp only [List.mem_cons, List.not_mem_nil, or_false] at ho
  have h1 : ∀ s : Str, Reads (pattern (.seq (.set fun c => c == 'A' || c == 'a') (.opt (.char 'z')))) (py"A") (' ' :: s) (py"A") :=
    fun s => Reads.matches (by simp [Regex.ends, Regex.char])
  have h2 : ∀ s : Str, Reads (pattern (.seq (.set fun c => c == 'A' || c == 'a') (.opt (.char 'z')))) (py"Az") (' ' :: s) (py"Az") :=
    fun s => Reads.matches (by simp [Regex.ends, Regex.char])
  unfold amendedAct
  rcases ho with rfl | rfl
  · exact (bind_some (h1 (p ++ rest) 0)).trans (act_phrase h hr (skip_space (by decide) _))
  · exact (bind_some (h2 (p ++ rest) 0)).trans (act_phrase h hr (skip_space (by decide) _))

theorem repealedAct_read {o b p rest : Str} {a : ParsedActRef} (ho : o ∈ [py"Nem lép hatályba ", py"Hatályát veszti "])
    (hb : b ∈ [py"a ", py"az "]) (h : ActPhrase (o.length + b.length) a p rest) (hr : Fails (token (py"hatálybalépésével összefüggő")) rest) :
    repealedAct ⟨0, o ++ (b ++ (p ++ rest))⟩ = some (a, ⟨o.length + b.length + p.length, rest⟩) := by
  simp only [List.mem_cons, List.not_mem_nil, or_false] at ho
  have h1 : ∀ s : Str, Reads (tokens [py"Nem lép hatályba", py"Hatályát veszti"]) (py"Nem lép hatályba") (' ' :: s) (py"Nem lép hatályba") :=
    fun s => Reads.left (reads_text (by decide +kernel))
  have h2 : ∀ s : Str, Reads (tokens [py"Nem lép hatályba", py"Hatályát veszti"]) (py"Hatályát veszti") (' ' :: s) (py"Hatályát veszti") :=
    fun s => Reads.right (fails_token (a := 'N') rfl (by rintro c hc; cases hc; decide)) (Reads.left (reads_text (by decide +kernel)))
  have h3 : ∀ m, (⟨m, ' ' :: (b ++ (p ++ rest))⟩ : At).skip = ⟨m + 1, b ++ (p ++ rest)⟩ := by
    intro m
    rw [skip_space (by decide)]
    simp only [List.mem_cons, List.not_mem_nil, or_false] at hb
    rcases hb with rfl | rfl <;> exact skip_cons (by decide +kernel) _
  unfold repealedAct
  rcases ho with rfl | rfl
  · exact (bind_some (h1 (b ++ (p ++ rest)) 0)).trans ((bind_some ((reads_az hb _).skip az_skip (h3 _))).trans (act_phrase h hr rfl))
  · exact (bind_some (h2 (b ++ (p ++ rest)) 0)).trans ((bind_some ((reads_az hb _).skip az_skip (h3 _))).trans (act_phrase h hr rfl))

/-! ## References -/

theorem space_not_first {cs : Str} {c : Char} {s : Str} (hc : isSpace c = false) (h : c ∉ cs) : NotFirst cs (' ' :: c :: s) := by
  intro d hd
  rw [first_space, first_cons hc] at hd
  cases hd
  exact h

theorem no_title_end {s : Str} (h : ItemStart s) : Fails (token (py"hatálybalépésével összefüggő")) (' ' :: s) :=
  fails_space (h.no_word rfl (by decide +kernel) (by decide +kernel) (by decide +kernel))

/-- References are read if none comes next. -/
theorem references_before {n : Nat} {rs : List ParsedRef} {v s : Str} (h : ReferencesText (n + 1) rs v) (hq : Quiet s) (hs : NotFirst (py",;évi") s) :
    Steps listedReference ⟨n, ' ' :: (v ++ s)⟩ rs ⟨n + 1 + v.length, s⟩ ∧ rs ≠ [] := by
  obtain ⟨c, t, hc, hsp⟩ := (references_start h s).head
  refine ⟨references_read h hq (separated_nothing hs _) (Nat.le_refl _) ?_ (by simp), ?_⟩
  · rw [hc]
    exact space_skip hsp n
  · cases h <;> simp

end Verif.ActGrammar
