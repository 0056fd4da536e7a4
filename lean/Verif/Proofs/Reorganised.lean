import Verif.Proofs.Restructured

/-! # The trees of sentences that change the divisions of acts (grammar.ebnf:155-231) -/

namespace Verif.ActGrammar

open Peg Spec

/-! ## Subtitles, and articles with them -/

/-- The two ways to say that a subtitle is replaced. -/
theorem subtitle_suffix {e : Str} (he : ReplacingSubtitle e) : Reads (andColon amendmentSuffix) (e ++ py":") [] () ∨
    (Fails (andColon amendmentSuffix) (e ++ py":") ∧ Reads (andColon amendmentSuffixWithSubtitle) (e ++ py":") [] ()) := by
  rcases he with he | ⟨a, b, l, rfl, ha, hb, hl⟩
  · exact .inl (andColon_reads (replacing_reads he))
  · right
    have done : ∀ {α β : Type} {p : Peg α} {u r : Str} {a : α} (b : β), Reads p u r a → Reads (do let _ ← p; pure b) u r b :=
      fun b h => h.to (reads_nil b _)
    simp only [List.mem_cons, List.not_mem_nil, or_false] at ha hb hl
    have h1 : Reads (do let _ ← tokens [py"lép", py"lépnek"]; pure () : Peg Unit) l (py":") () := by
      rcases hl with rfl | rfl
      · exact done () (names_space (t := py"lép") (by simp) (by decide +kernel) (no_name (by decide +kernel)))
      · exact done () (names_space (t := py"lépnek") (by simp) (by decide +kernel) (no_name (by decide +kernel)))
    have h2 : Reads (do let _ ← opt (token (py"és rendelkezés")); let _ ← tokens [py"lép", py"lépnek"]; pure () : Peg Unit) (b ++ l) (py":") () := by
      rcases hb with rfl | rfl
      · refine Reads.bind (u := []) (a := none) (Fails.opt (fails_text ?_)) h1
        rcases hl with rfl | rfl <;> rfl
      · refine Reads.bind (Reads.opt ((reads_text (t := py"és rendelkezés") (by decide +kernel)).space fun _ => token_skip _ _)) h1
    have h3 : Reads (do let _ ← token (py"alcím"); let _ ← opt (token (py"és rendelkezés")); let _ ← tokens [py"lép", py"lépnek"]; pure () : Peg Unit)
        ((py" alcím") ++ (b ++ l)) (py":") () := by
      refine Reads.bind (name_space (t := py"alcím") (by decide +kernel) ?_) h2
      rcases hb with rfl | rfl
      · rcases hl with rfl | rfl <;> exact no_name_space
      · exact no_name_space
    have h4 : Reads (do
        let _ ← opt (token (py"rendelkezés és")); let _ ← token (py"alcím"); let _ ← opt (token (py"és rendelkezés"));
        let _ ← tokens [py"lép", py"lépnek"]; pure () : Peg Unit) (a ++ ((py" alcím") ++ (b ++ l))) (py":") () := by
      rcases ha with rfl | rfl
      · exact Reads.bind (u := []) (a := none) (Fails.opt (fails_text rfl)) h3
      · exact Reads.bind (Reads.opt ((reads_text (t := py"rendelkezés és") (by decide +kernel)).space fun _ => token_skip _ _)) h3
    have e1 : (py" helyébe a következő") ++ a ++ (py" alcím") ++ b ++ l = (py" helyébe a következő") ++ (a ++ ((py" alcím") ++ (b ++ l))) := by simp
    rw [e1]
    refine ⟨?_, ?_⟩
    · refine Fails.bind (Fails.rule ?_)
      rw [List.append_assoc, show ∀ t, ((py" helyébe a következő") ++ t).dropWhile isSpace = (py"helyébe a következő") ++ t from
        fun t => (dropWhile_space _).trans (dropWhile_cons_of (by decide +kernel))]
      refine Fails.or ?_ (fails_text rfl).bind
      refine (reads_text (t := py"helyébe a következő") (by decide +kernel)).fails (f := fun _ => do
        let _ ← tokens [py"rendelkezés lép", py"rendelkezések lépnek"]; pure ()) (Fails.bind ?_)
      rcases ha with rfl | rfl
      · exact fails_texts rfl
      · exact fails_texts rfl
    · refine andColon_reads (x := ()) (Reads.rule_space (c := 'h') (w := (py"helyébe a következő") ++ (a ++ ((py" alcím") ++ (b ++ l)))) ?_ rfl
        (by decide +kernel))
      exact (reads_text (t := py"helyébe a következő") (by decide +kernel)).bind h4

theorem subtitle_head {z : Str} (hz : SubtitleWord z) (R : Str) : ∃ t, z ++ R = 'a' :: 'l' :: t := by
  simp only [SubtitleWord, List.mem_cons, List.not_mem_nil, or_false] at hz
  rcases hz with (rfl | rfl | rfl | rfl | rfl | rfl) | ⟨e, _, rfl⟩ <;> exact ⟨_, rfl⟩

theorem subtitle_parts {z R : Str} (hz : SubtitleWord z) (hR : WordEnds R) (k : PartKind) : Fails (partOf k) (z ++ R) := by
  obtain ⟨u, t, e, h⟩ := subtitle_plain hz hR
  rw [e]
  exact plain_fails h k

theorem subtitle_skip {z : Str} (hz : SubtitleWord z) (R : Str) (n : Nat) :
    (⟨n, z ++ R⟩ : At).skip = ⟨n, z ++ R⟩ ∧ (⟨n, ' ' :: (z ++ R)⟩ : At).skip = ⟨n + 1, z ++ R⟩ := by
  obtain ⟨t, e⟩ := subtitle_head hz R
  rw [e]
  exact ⟨skip_cons (by decide +kernel) n, space_skip (by decide +kernel) n⟩

theorem subtitle_barren {z R : Str} (hz : SubtitleWord z) (hR : WordEnds R) : Barren (' ' :: (z ++ R)) := by
  have h := subtitle_parts hz hR
  obtain ⟨t, e⟩ := subtitle_head hz R
  rw [e] at h ⊢
  exact barren_al h

theorem subtitle_no_az {z : Str} (hz : SubtitleWord z) (R : Str) : Fails az (' ' :: (z ++ R)) := by
  intro n
  rw [← az_skip, (subtitle_skip hz R n).2]
  obtain ⟨t, e⟩ := subtitle_head hz R
  rw [e]
  exact al_no_az t _

theorem subtitle_no_beside {z : Str} (hz : SubtitleWord z) (R : Str) (words : List Str) : Fails (besideArticle words) (' ' :: (z ++ R)) := by
  refine no_besideArticle (subtitle_no_az hz R) ?_
  obtain ⟨t, e⟩ := subtitle_head hz R
  rw [e, afterNumber_first ((dropWhile_space _).trans (dropWhile_cons_of (by decide +kernel))) (by decide +kernel)]
  simp

theorem subtitle_no_position {z R : Str} (hz : SubtitleWord z) {m : Nat} (ht : subtitleTitle ⟨m, ' ' :: (z ++ R)⟩ = none) :
    structuralPosition ⟨m, ' ' :: (z ++ R)⟩ = none := by
  have hb := subtitle_no_beside hz R
  obtain ⟨t, e⟩ := subtitle_head hz R
  rw [e] at ht hb ⊢
  refine (no_structure_of rfl (space_not_first (by decide +kernel) (by decide +kernel)) ?_ ht (bind_none (hb _ m)) (bind_none (hb _ m))).1
  have h1 := no_digits (c := 'a') (s := 'l' :: t) (by decide +kernel) (by decide +kernel) (m + 1)
  rw [← space_skip (c := 'a') (by decide +kernel)] at h1
  exact (rule_skip _ _).symm.trans h1

theorem subtitle_title {z : Str} (hz : SubtitleWord z) (R : Str) : Fails (token (py"hatálybalépésével összefüggő")) (' ' :: (z ++ R)) := by
  obtain ⟨t, e⟩ := subtitle_head hz R
  rw [e]
  exact fails_text rfl

theorem and_quiet {b : Str} (hb : b ∈ [py"a ", py"az "]) (s : Str) : Quiet ((py" és") ++ ' ' :: (b ++ s)) := by
  simp only [List.mem_cons, List.not_mem_nil, or_false] at hb
  rcases hb with rfl | rfl
  · exact quiet_word (w := py"és") (s := (py" a ") ++ s) (plain_word rfl) (by rintro _ ⟨⟩; decide)
  · exact quiet_word (w := py"és") (s := (py" az ") ++ s) (plain_word rfl) (by rintro _ ⟨⟩; decide)

/-- Only a subtitle. -/
theorem bare_read {z R : Str} (hz : SubtitleWord z) (hR : Ends R) (hc : NotFirst (py"cé") R) {j : At} {n : Nat} (hj : j.skip = ⟨n, z ++ R⟩) :
    referenceWithSubtitle j = some (([], ↑n, ↑(n + z.length)), ⟨n + z.length, R⟩) := by
  have h1 := subtitle_reads hz hR (notFirst_sub hc (by decide)) n
  refine located_eq hj ?_
  have és : Fails (token (py"és")) R := fails_first (a := 'é') rfl (notFirst_sub hc (by decide))
  rw [or_right, or_right]
  · rw [bind_some h1]
    rfl
  · exact bind_none (subtitle_parts hz hR.word .article n)
  · rw [bind_some h1]
    exact bind_none (és _)

/-- Articles with the subtitle before them. -/
theorem subtitled_read {n : Nat} {q : ParsedPart} {v R : Str} (h : SubtitledText n q v) (hR : Ends R) (hQ : Quiet R) (hc : NotFirst (py"cé") R) {j : At}
    (hj : j.skip = ⟨n, v ++ R⟩) : referenceWithSubtitle j = some (([q], ↑n, ↑(n + v.length)), ⟨n + v.length, R⟩) := by
  cases h with
  | @first z v hz hk hp =>
    have e1 : z ++ (py" és ") ++ v ++ R = z ++ ((py" és") ++ ' ' :: (v ++ R)) := by simp
    rw [e1] at hj
    refine located_eq hj ?_
    have h1 := subtitle_reads (R := (py" és") ++ ' ' :: (v ++ R)) hz (ends_space _) (space_not_first (by decide +kernel) (by decide)) n
    have h2 : token (py"és") ⟨n + z.length, (py" és") ++ ' ' :: (v ++ R)⟩ = some (py"és", ⟨n + z.length + 3, ' ' :: (v ++ R)⟩) :=
      name_space (t := py"és") (by decide +kernel) no_name_space _
    have h3 := next_read hp (.inl hQ) (part_skip hp (n + z.length + 3) R)
    rw [hk] at h3
    have h3 : articleReference _ = _ := h3
    refine or_left ?_
    rw [bind_some h1, bind_some h2, bind_some h3]
    have e2 : n + (z ++ (py" és ") ++ v).length = n + z.length + 4 + v.length := by simp; omega
    rw [e2]
    rfl
  | @last v b a z hk hp hb ha hz =>
    have e1 : v ++ (py" és ") ++ b ++ a ++ (py"megelőző ") ++ z ++ R = v ++ ((py" és") ++ ' ' :: (b ++ (a ++ ((py"megelőző") ++ ' ' :: (z ++ R))))) := by simp
    rw [e1] at hj
    have hq : Quiet ((py" és") ++ ' ' :: (b ++ (a ++ ((py"megelőző") ++ ' ' :: (z ++ R))))) :=
      and_quiet hb _
    refine located_eq hj ?_
    obtain ⟨c, t, e2, hcb⟩ := part_start hp
    have hd : isAsciiDigit c = true := by rw [hk] at hcb; exact hcb
    have n1 : subtitleToken ⟨n, v ++ ((py" és") ++ ' ' :: (b ++ (a ++ ((py"megelőző") ++ ' ' :: (z ++ R)))))⟩ = none := by
      rw [e2]
      exact no_subtitleToken (digit_not_space hd) (by rintro rfl; exact absurd hd (by decide)) n
    rw [or_right (bind_none n1)]
    refine or_left ?_
    have hsk : (⟨n, v ++ ((py" és") ++ ' ' :: (b ++ (a ++ ((py"megelőző") ++ ' ' :: (z ++ R)))))⟩ : At).skip =
        ⟨n, v ++ ((py" és") ++ ' ' :: (b ++ (a ++ ((py"megelőző") ++ ' ' :: (z ++ R)))))⟩ := by
      rw [e2]
      exact skip_cons (digit_not_space hd) n
    have h1 := next_read hp (.inl hq) hsk
    rw [hk] at h1
    have h1 : articleReference _ = _ := h1
    have h2 : token (py"és") ⟨n + v.length, (py" és") ++ ' ' :: (b ++ (a ++ ((py"megelőző") ++ ' ' :: (z ++ R))))⟩ =
        some (py"és", ⟨n + v.length + 3, ' ' :: (b ++ (a ++ ((py"megelőző") ++ ' ' :: (z ++ R))))⟩) :=
      name_space (t := py"és") (by decide +kernel) no_name_space _
    have h3 : az ⟨n + v.length + 3, ' ' :: (b ++ (a ++ ((py"megelőző") ++ ' ' :: (z ++ R))))⟩ =
        some (b, ⟨n + v.length + 4 + b.length, a ++ ((py"megelőző") ++ ' ' :: (z ++ R))⟩) := by
      have hs : (⟨n + v.length + 3, ' ' :: (b ++ (a ++ ((py"megelőző") ++ ' ' :: (z ++ R))))⟩ : At).skip =
          ⟨n + v.length + 4, b ++ (a ++ ((py"megelőző") ++ ' ' :: (z ++ R)))⟩ := by
        simp only [List.mem_cons, List.not_mem_nil, or_false] at hb
        rcases hb with rfl | rfl <;> exact space_skip (by decide +kernel) _
      rw [← az_skip, hs]
      exact reads_az hb _ _
    have h4 : ∃ y k, opt (tokens [py"azt", py"azokat"]) ⟨n + v.length + 4 + b.length, a ++ ((py"megelőző") ++ ' ' :: (z ++ R))⟩ = some (y, k) ∧
        token (py"megelőző") k = some (py"megelőző", ⟨n + v.length + 4 + b.length + a.length + 8, ' ' :: (z ++ R)⟩) := by
      simp only [List.mem_cons, List.not_mem_nil, or_false] at ha
      rcases ha with rfl | rfl | rfl
      · refine ⟨_, _, opt_none (fails_texts (ts := [py"azt", py"azokat"]) (s := (py"megelőző") ++ ' ' :: (z ++ R)) rfl _), ?_⟩
        exact reads_name (t := py"megelőző") (by decide +kernel) no_name_space _
      · refine ⟨_, _, opt_some (reads_names (ts := [py"azt", py"azokat"]) (t := py"azt") (rest := (py" megelőző") ++ ' ' :: (z ++ R)) (by simp) (by decide +kernel) no_name_space _), ?_⟩
        exact name_space (t := py"megelőző") (by decide +kernel) no_name_space _
      · refine ⟨_, _, opt_some (reads_names (ts := [py"azt", py"azokat"]) (t := py"azokat") (rest := (py" megelőző") ++ ' ' :: (z ++ R)) (by simp) (by decide +kernel) no_name_space _), ?_⟩
        exact name_space (t := py"megelőző") (by decide +kernel) no_name_space _
    obtain ⟨y, k, h4, h5⟩ := h4
    have h6 : subtitleToken ⟨n + v.length + 4 + b.length + a.length + 8, ' ' :: (z ++ R)⟩ =
        some ((), ⟨n + v.length + 4 + b.length + a.length + 9 + z.length, R⟩) := by
      have := subtitle_reads hz hR (notFirst_sub hc (by decide)) (n + v.length + 4 + b.length + a.length + 9)
      rw [← (subtitle_skip hz R _).2] at this
      exact (rule_skip _ _).symm.trans this
    rw [bind_some h1, bind_some h2, bind_some h3, bind_some h4, bind_some h5, bind_some h6]
    have e3 : n + (v ++ (py" és ") ++ b ++ a ++ (py"megelőző ") ++ z).length = n + v.length + 4 + b.length + a.length + 9 + z.length := by simp; omega
    rw [e3]
    rfl

/-! ## What comes after the act -/

theorem subtitleBody_amend {a : ParsedActRef} {i j : At} {x : Option ParsedStructRef} {r : ParsedRef} {e : Str} {m : Nat}
    (h : opt structuralPosition i = some (x, j)) (hr : referenceWithSubtitle j = some (r, ⟨m, e ++ py":"⟩)) (he : ReplacingSubtitle e) :
    subtitleBody a i = some (withAct a (.blockAmendmentWithSubtitle a x (some r) none), ⟨m + (e ++ py":").length, []⟩) := by
  unfold subtitleBody
  rw [bind_some h]
  rcases subtitle_suffix he with h1 | ⟨h1, h2⟩
  · have h1 := h1 m
    rw [List.append_nil] at h1
    refine or_left ?_
    rw [bind_some hr, bind_some h1]
    rfl
  · have h2 := h2 m
    rw [List.append_nil] at h2
    have n1 : ∀ {f : ParsedRef → Unit → Peg ParseTree}, (do let r ← referenceWithSubtitle; let x ← andColon amendmentSuffix; f r x : Peg ParseTree) j = none := by
      intro f
      rw [bind_some hr]
      exact bind_none (h1 m)
    rw [or_right n1]
    refine or_left ?_
    rw [bind_some hr, bind_some h2]
    rfl

theorem subtitleBody_insert {a : ParsedActRef} {i : At} {x : Option ParsedStructRef} {r : ParsedRef} {s e : Str} {n m : Nat}
    (h : opt structuralPosition i = some (x, ⟨n, (py" a következő") ++ s⟩)) (hr : referenceWithSubtitle ⟨n + 12, s⟩ = some (r, ⟨m, e ++ py":"⟩))
    (he : Adding e) :
    subtitleBody a i = some (withAct a (.blockAmendmentWithSubtitle a x none (some r)), ⟨m + (e ++ py":").length, []⟩) := by
  unfold subtitleBody
  rw [bind_some h]
  have n1 := following_no_subtitled s n
  have h1 : insertionToken ⟨n, (py" a következő") ++ s⟩ = some (py"a következő", ⟨n + 12, s⟩) := insertionToken_reads s n
  obtain ⟨y, h2⟩ := adding_reads (rest := py":") he
  have h2 := andColon_reads h2 m
  rw [List.append_nil] at h2
  rw [or_right (bind_none n1), or_right (bind_none n1), bind_some h1, bind_some hr, bind_some h2]
  rfl

theorem structuralBody_amend {a : ParsedActRef} {i : At} {r : ParsedStructRef} {e : Str} {m : Nat}
    (hr : anyStructuralReference i = some (r, ⟨m, e ++ py":"⟩)) (he : ReplacingDivision e) :
    structuralBody a i = some (withAct a (.blockAmendmentStructural a (some r) none), ⟨m + (e ++ py":").length, []⟩) := by
  unfold structuralBody
  rcases division_suffix he with h1 | ⟨h1, h2⟩
  · have h1 := h1 m
    rw [List.append_nil] at h1
    refine or_left ?_
    rw [bind_some hr, bind_some h1]
    rfl
  · have h2 := h2 m
    rw [List.append_nil] at h2
    have n1 : ∀ {f : ParsedStructRef → Unit → Peg ParseTree}, (do let r ← anyStructuralReference; let x ← andColon amendmentSuffix; f r x : Peg ParseTree) i = none := by
      intro f
      rw [bind_some hr]
      exact bind_none (h1 m)
    rw [or_right n1]
    refine or_left ?_
    rw [bind_some hr, bind_some h2]
    rfl

theorem any_skip (i : At) : anyStructuralReference i.skip = anyStructuralReference i := rule_skip _ i

theorem any_of {i : At} : anyStructuralReference i = structuralAlternatives i := alternatives_skip i

/-! ## Divisions -/

theorem head_title {c : Char} {t : Str} (hs : isSpace c = false) (h : c ≠ 'h') : Fails (token (py"hatálybalépésével összefüggő")) (' ' :: c :: t) := by
  refine fails_space (fails_token (a := 'h') rfl fun d hd => ?_)
  rw [first_cons hs] at hd
  cases hd
  exact h

theorem spot_title {s : Spot} {v : Str} (h : SpotText s v) (R : Str) : Fails (token (py"hatálybalépésével összefüggő")) (' ' :: (v ++ R)) := by
  obtain ⟨c, t, e, hs, hc⟩ := spot_first h R
  rw [e]
  exact head_title hs hc

theorem spot_skip {s : Spot} {v : Str} (h : SpotText s v) (R : Str) (n : Nat) : (⟨n, ' ' :: (v ++ R)⟩ : At).skip = ⟨n + 1, v ++ R⟩ := by
  obtain ⟨c, t, e, hs⟩ := spot_start h R
  rw [e]
  exact space_skip hs n

theorem title_skip (i : At) : subtitleTitle i.skip = subtitleTitle i := rule_skip _ i

theorem replace_tree {o p v e : Str} {a : ParsedActRef} {d : Division} (ho : o ∈ [py"A ", py"Az "])
    (ha : ActPhrase o.length a p (' ' :: v ++ e ++ py":")) (hd : DivisionText d v) (he : ReplacingDivision e)
    (hs : Known (.division d) ∨ NoTitle (o ++ p ++ ' ' :: v ++ e ++ py":")) :
    ∃ r, DivisionRead d r ∧ parse (o ++ p ++ ' ' :: v ++ e ++ py":") = some (withAct a (.blockAmendmentStructural a (some r) none)) := by
  simp only [List.append_assoc, List.cons_append] at ha hs ⊢
  have hi := division_instead he (py":")
  have hsp : SpotText (.division d) v := .division hd
  have h1 := amendedAct_read ho ha (spot_title hsp _)
  have hsk := spot_skip hsp (e ++ py":") (o.length + p.length)
  have ht : Known (.division d) ∨ subtitleTitle ⟨o.length + p.length, ' ' :: (v ++ (e ++ py":"))⟩ = none :=
    hs.imp_right fun h => no_subtitleTitle in_sentence h
  obtain ⟨r, _, h2⟩ := spot_read hsp hi.ends hi.beside hsk ht
  rw [← title_skip, hsk] at ht
  obtain ⟨r', h3, h4⟩ := division_read hd hi.ends _ ht
  rw [← hsk, alternatives_skip, ← any_of] at h4
  refine ⟨r', h3, structural_sentence ho h1 (barren_body (opt_some h2) hi.barren) (subtitleBody_none (opt_some h2) (hi.subtitled _) hi.new)
    (structuralBody_amend h4 he)⟩

theorem division_barren {d : Division} {v : Str} (h : DivisionText d v) (R : Str) : ∀ k, Fails (partOf k) (' ' :: (v ++ R)) := by
  intro k n
  rw [← partOf_skip, spot_skip (.division h) R n]
  exact division_parts h R k _

theorem division_no_subtitled {d : Division} {v : Str} (h : DivisionText d v) (R : Str) : Fails referenceWithSubtitle (' ' :: (v ++ R)) := by
  have hp := division_parts h R .article
  obtain ⟨c, t, e, hs, hl⟩ := division_first h R
  rw [e] at hp ⊢
  exact other_no_subtitled hs (by rintro rfl; cases hl) hp

theorem in_sentence' {o p u r : Str} : (⟨o.length + p.length + u.length, r⟩ : At).In (o ++ (p ++ (u ++ r))) := by
  have : (⟨(o ++ p).length + u.length, r⟩ : At).In ((o ++ p) ++ (u ++ r)) := in_sentence
  simpa using this

theorem adding_ends {e : Str} (he : Adding e) (s : Str) : Ends (e ++ s) ∧ NotFirst (py"cé") (e ++ s) := by
  simp only [Adding, List.mem_cons, List.not_mem_nil, or_false] at he
  rcases he with rfl | rfl
  · exact ⟨ends_space _, space_not_first (by decide +kernel) (by decide)⟩
  · exact ⟨ends_space _, space_not_first (by decide +kernel) (by decide)⟩

theorem add_tree {o p v e : Str} {a : ParsedActRef} {d : Division} (ho : o ∈ [py"A ", py"Az "])
    (ha : ActPhrase o.length a p ((py" a következő ") ++ v ++ e ++ py":")) (hd : DivisionText d v) (he : Adding e)
    (hs : NoTitle (o ++ p ++ (py" a következő ") ++ v ++ e ++ py":")) :
    ∃ r, DivisionRead d r ∧ parse (o ++ p ++ (py" a következő ") ++ v ++ e ++ py":") = some (withAct a (.blockAmendmentStructural a none (some r))) := by
  have e1 : (py" a következő ") ++ v ++ e ++ py":" = (py" a következő") ++ ' ' :: (v ++ (e ++ py":")) := by simp
  have e2 : o ++ p ++ (py" a következő ") ++ v ++ e ++ py":" = o ++ (p ++ ((py" a következő") ++ ' ' :: (v ++ (e ++ py":")))) := by simp
  rw [e1] at ha
  rw [e2] at hs ⊢
  have h1 := amendedAct_read ho ha (fails_text rfl)
  have ht : ∀ n r, (⟨n, r⟩ : At).In (o ++ (p ++ ((py" a következő") ++ ' ' :: (v ++ (e ++ py":"))))) → subtitleTitle ⟨n, r⟩ = none :=
    fun n r h => no_subtitleTitle h hs
  obtain ⟨h2, h3⟩ := following_no_position (ht _ _ in_sentence)
  rw [← any_of] at h3
  have h4 : insertionToken ⟨o.length + p.length, (py" a következő") ++ ' ' :: (v ++ (e ++ py":"))⟩ =
      some (py"a következő", ⟨o.length + p.length + 12, ' ' :: (v ++ (e ++ py":"))⟩) := insertionToken_reads _ _
  have hsk := spot_skip (.division hd) (e ++ py":") (o.length + p.length + 12)
  have ht' : subtitleTitle ⟨o.length + p.length + 12, ' ' :: (v ++ (e ++ py":"))⟩ = none := ht _ _ (in_sentence' (u := py" a következő"))
  rw [← title_skip, hsk] at ht'
  obtain ⟨r, h5, h6⟩ := division_read hd (adding_ends he (py":")).1 _ (.inr ht')
  rw [← hsk, alternatives_skip, ← any_of] at h6
  obtain ⟨y, h7⟩ := adding_reads (rest := py":") he
  have h7 := andColon_reads h7 (o.length + p.length + 12 + 1 + v.length)
  rw [List.append_nil] at h7
  refine ⟨r, h5, structural_sentence (m := o.length + p.length + 12 + 1 + v.length + (e ++ py":").length) ho h1
    (barren_body (opt_none h2) (barren_following (division_barren hd _))) (subtitleBody_none (opt_none h2) (following_no_subtitled _ _) ?_) ?_⟩
  · intro y k hk
    cases h4.symm.trans hk
    exact division_no_subtitled hd _ _
  · unfold structuralBody
    rw [or_right (bind_none h3), or_right (bind_none h3)]
    refine or_left ?_
    rw [bind_some h4, bind_some h6, bind_some h7]
    rfl

/-- The book is named, but what it has is new. -/
theorem book_no_position {b s : Str} (hb : CapitalOrdinal b) {m : Nat} (ht : subtitleTitle ⟨m, ' ' :: (b ++ (py" Könyve") ++ ' ' :: s)⟩ = none) :
    structuralPosition ⟨m, ' ' :: (b ++ (py" Könyve") ++ ' ' :: s)⟩ = none ∧ structuralAlternatives ⟨m, ' ' :: (b ++ (py" Könyve") ++ ' ' :: s)⟩ = none := by
  rw [← position_skip, ← alternatives_skip]
  rw [← title_skip] at ht
  obtain ⟨c, d, t, hx, hc, _, _, _, _, _, hdg, _⟩ := capital_ordinal hb
  have hsk : (⟨m, ' ' :: (b ++ (py" Könyve") ++ ' ' :: s)⟩ : At).skip = ⟨m + 1, b ++ ((py" Könyve") ++ ' ' :: s)⟩ := by
    rw [hx]
    simp only [List.append_assoc, List.cons_append]
    exact space_skip hc m
  rw [hsk] at ht ⊢
  have h1 := reads_capital (rest := (py" Könyve") ++ ' ' :: s) hb no_name_space (m + 1)
  have nb : ∀ n, ofBook ⟨n, b ++ ((py" Könyve") ++ ' ' :: s)⟩ = some (none, ⟨n, b ++ ((py" Könyve") ++ ' ' :: s)⟩) := by
    intro n
    refine opt_none ?_
    rw [bind_some (reads_capital (rest := (py" Könyve") ++ ' ' :: s) hb no_name_space n)]
    refine bind_none (fails_space (s := (py"Könyve") ++ ' ' :: s) ?_ _)
    exact fails_longer (t := py"Könyv") (rest := ' ' :: s) (c := 'e') (by decide +kernel) (by decide +kernel) (by decide +kernel)
  have hsk' : (⟨m + 1, b ++ ((py" Könyve") ++ ' ' :: s)⟩ : At).skip = ⟨m + 1, b ++ ((py" Könyve") ++ ' ' :: s)⟩ := by
    rw [hx]
    exact skip_cons hc _
  have n1 : chapterNumber ⟨m + 1, b ++ ((py" Könyve") ++ ' ' :: s)⟩ = none := no_chapter_words hb _ _
  have n2 : partNumber ⟨m + 1, b ++ ((py" Könyve") ++ ' ' :: s)⟩ = none := by
    unfold partNumber rule
    rw [hsk', bind_some (nb _), bind_some h1]
    exact bind_none (fails_suffix (t := py"Rész") (by decide) rfl _)
  have n3 : titleNumber ⟨m + 1, b ++ ((py" Könyve") ++ ' ' :: s)⟩ = none := by
    unfold titleNumber rule
    rw [hsk', bind_some (nb _)]
    exact words_not_romans hb _ _ _
  have n0 : subtitleNumber ⟨m + 1, b ++ ((py" Könyve") ++ ' ' :: s)⟩ = none := by
    rw [hx]
    exact no_digits hc hdg _
  have n4 : structuralAlternatives ⟨m + 1, b ++ ((py" Könyve") ++ ' ' :: s)⟩ = none := by
    unfold structuralAlternatives
    rw [or_right n0, or_right ht, or_right n1, or_right n2]
    exact n3
  refine ⟨?_, n4⟩
  unfold structuralPosition afterArticle beforeArticle
  rw [or_right, or_right]
  · exact n4
  · rw [bind_some (opt_none n1)]
    exact bind_none (capital_no_beside hb _ _)
  · rw [bind_some (opt_none n1)]
    exact bind_none (capital_no_beside hb _ _)

theorem addToBook_tree {o p b x c e : Str} {a : ParsedActRef} (ho : o ∈ [py"A ", py"Az "])
    (ha : ActPhrase o.length a p (' ' :: b ++ (py" Könyve a következő ") ++ x ++ (py". ") ++ c ++ e ++ py":")) (hb : CapitalOrdinal b)
    (hx : Lettered RomanDigits x) (hc : Inflected (py"Cím") c) (he : Adding e)
    (hs : NoTitle (o ++ p ++ ' ' :: b ++ (py" Könyve a következő ") ++ x ++ (py". ") ++ c ++ e ++ py":")) :
    ∃ r, DivisionRead (.title (some b) x) r ∧ parse (o ++ p ++ ' ' :: b ++ (py" Könyve a következő ") ++ x ++ (py". ") ++ c ++ e ++ py":") =
      some (withAct a (.blockAmendmentStructural a none (some r))) := by
  obtain ⟨q, hq⟩ : ∃ q, q = x ++ '.' :: ' ' :: (c ++ (e ++ py":")) := ⟨_, rfl⟩
  have e1 : ' ' :: b ++ (py" Könyve a következő ") ++ x ++ (py". ") ++ c ++ e ++ py":" = ' ' :: (b ++ (py" Könyve") ++ ' ' :: ((py"a következő") ++ ' ' :: q)) := by
    rw [hq]; simp
  have e2 : o ++ p ++ ' ' :: b ++ (py" Könyve a következő ") ++ x ++ (py". ") ++ c ++ e ++ py":" =
      o ++ (p ++ ' ' :: (b ++ (py" Könyve") ++ ' ' :: ((py"a következő") ++ ' ' :: q))) := by rw [hq]; simp
  rw [e1] at ha
  rw [e2] at hs ⊢
  obtain ⟨c1, d, t, hb', hc1, _, hn, _, _, _, hdg, hl, hca⟩ := capital_ordinal hb
  have hst : ∃ u, b ++ (py" Könyve") ++ ' ' :: ((py"a következő") ++ ' ' :: q) = c1 :: u := by
    rw [hb']
    exact ⟨_, rfl⟩
  obtain ⟨u, hu⟩ := hst
  have low : ∀ {y : Char}, isLowerAz y = true → c1 ≠ y := by
    rintro y hy rfl
    exact absurd (hl.symm.trans hy) (by decide)
  have hp : ∀ k, Fails (partOf k) (c1 :: u) := by
    intro k
    refine fails_start hc1 ?_
    have : c1 ≠ '(' := by rintro rfl; exact hca (by decide)
    cases k <;> simp [Begins, hdg, hl, this]
  have ht := no_subtitleTitle (in_sentence (o := o) (p := p)) hs
  obtain ⟨h2, h3⟩ := book_no_position hb ht
  rw [← any_of] at h3
  have hbar : Barren (' ' :: (b ++ (py" Könyve") ++ ' ' :: ((py"a következő") ++ ' ' :: q))) := by
    rw [hu]
    exact barren_other hc1 (low (by decide)) hp
  have hns : Fails referenceWithSubtitle (' ' :: (b ++ (py" Könyve") ++ ' ' :: ((py"a következő") ++ ' ' :: q))) := by
    rw [hu]
    exact other_no_subtitled hc1 (low (by decide)) (hp _)
  have hni : Fails insertionToken (' ' :: (b ++ (py" Könyve") ++ ' ' :: ((py"a következő") ++ ' ' :: q))) := by
    rw [hu]
    exact no_insertionToken hc1 (low (by decide))
  have h1 := amendedAct_read ho ha (by rw [hu]; exact head_title hc1 (low (by decide)))
  obtain ⟨id, h4, h5⟩ := romans_reads hx (' ' :: (c ++ (e ++ py":")))
  obtain ⟨c2, d2, t2, hx2, hc2, _⟩ := romans_head hx (' ' :: c)
  have h6 : Reads titleInsertionWithBook (' ' :: (b ++ ((py" Könyve") ++ ((py" a következő") ++ (' ' :: (x ++ '.' :: ' ' :: c)))))) (e ++ py":") (.titleNumber (some b) id) := by
    refine Reads.rule_space (c := c1) ?_ (by rw [hb']; rfl) hc1
    refine Reads.bind (reads_capital hb no_name_space) ?_
    refine Reads.bind (name_space (t := py"Könyve") (by decide +kernel) no_name_space) ?_
    refine Reads.bind (insertionToken_reads _) ?_
    refine Reads.space (numbered_reads (f := fun id => ParsedStructRef.titleNumber (some b) id) h5 hc rfl (by decide +kernel) (adding_ends he (py":")).1.word) ?_
    exact fun i => bind_skip (lettered_skip i)
  have h6 := h6 (o.length + p.length)
  have e3 : ' ' :: (b ++ ((py" Könyve") ++ ((py" a következő") ++ (' ' :: (x ++ '.' :: ' ' :: c))))) ++ (e ++ py":") =
      ' ' :: (b ++ (py" Könyve") ++ ' ' :: ((py"a következő") ++ ' ' :: q)) := by rw [hq]; simp
  rw [e3] at h6
  obtain ⟨y, h7⟩ := adding_reads (rest := py":") he
  have h7 := andColon_reads h7 (o.length + p.length + (' ' :: (b ++ ((py" Könyve") ++ ((py" a következő") ++ (' ' :: (x ++ '.' :: ' ' :: c)))))).length)
  rw [List.append_nil] at h7
  refine ⟨_, .title h4, structural_sentence (m := o.length + p.length + (' ' :: (b ++ ((py" Könyve") ++ ((py" a következő") ++ (' ' :: (x ++ '.' :: ' ' :: c)))))).length + (e ++ py":").length) ho h1 (barren_body (opt_none h2) hbar) (subtitleBody_none (opt_none h2) (hns _) ?_) ?_⟩
  · intro y k hk
    rw [hni] at hk
    cases hk
  · unfold structuralBody
    rw [or_right (bind_none h3), or_right (bind_none h3), or_right (bind_none (hni _)), bind_some h6, bind_some h7]
    rfl

/-! ## Subtitles -/

theorem replaceSubtitle_tree {o p v z e : Str} {a : ParsedActRef} {s : Spot} (ho : o ∈ [py"A ", py"Az "])
    (ha : ActPhrase o.length a p (' ' :: v ++ ' ' :: z ++ e ++ py":")) (hp : SpotText s v) (hz : SubtitleWord z) (he : ReplacingSubtitle e)
    (hs : Known s ∨ NoTitle (o ++ p ++ ' ' :: v ++ ' ' :: z ++ e ++ py":")) :
    ∃ r n m, SpotRead s r ∧ parse (o ++ p ++ ' ' :: v ++ ' ' :: z ++ e ++ py":") =
      some (withAct a (.blockAmendmentWithSubtitle a (some r) (some ([], n, m)) none)) := by
  simp only [List.append_assoc, List.cons_append] at ha hs ⊢
  have hi := subtitle_instead he (py":")
  have h1 := amendedAct_read ho ha (spot_title hp _)
  have hsk := spot_skip hp (' ' :: (z ++ (e ++ py":"))) (o.length + p.length)
  have ht : Known s ∨ subtitleTitle ⟨o.length + p.length, ' ' :: (v ++ ' ' :: (z ++ (e ++ py":")))⟩ = none :=
    hs.imp_right fun h => no_subtitleTitle in_sentence h
  obtain ⟨r, h2, h3⟩ := spot_read hp (ends_space _) (subtitle_no_beside hz _) hsk ht
  have h4 := bare_read hz hi.ends hi.other (subtitle_skip hz (e ++ py":") (o.length + p.length + 1 + v.length)).2
  exact ⟨r, _, _, h2, subtitle_sentence ho h1 (barren_body (opt_some h3) (subtitle_barren hz hi.ends.word)) (subtitleBody_amend (opt_some h3) h4 he)⟩

theorem following_spaced {s : Str} {k : PartKind} {c : Char} {t : Str} (e : s = c :: t) (hs : isSpace c = false) (h : Fails (partOf k) s) : Fails (partOf k) (' ' :: s) := by
  intro n
  subst e
  rw [← partOf_skip, space_skip hs]
  exact h _

theorem subtitle_new {z R : Str} (hz : SubtitleWord z) (hR : WordEnds R) : Barren ((py" a következő") ++ ' ' :: (z ++ R)) := by
  refine barren_following fun k => ?_
  obtain ⟨t, e⟩ := subtitle_head hz R
  exact following_spaced e (by decide +kernel) (subtitle_parts hz hR k)

theorem addSubtitleAt_tree {o p v z e : Str} {a : ParsedActRef} {s : Spot} (ho : o ∈ [py"A ", py"Az "])
    (ha : ActPhrase o.length a p (' ' :: v ++ (py" a következő ") ++ z ++ e ++ py":")) (hp : SpotText s v) (hz : SubtitleWord z) (he : Adding e)
    (hs : Known s ∨ NoTitle (o ++ p ++ ' ' :: v ++ (py" a következő ") ++ z ++ e ++ py":")) :
    ∃ r n m, SpotRead s r ∧ parse (o ++ p ++ ' ' :: v ++ (py" a következő ") ++ z ++ e ++ py":") =
      some (withAct a (.blockAmendmentWithSubtitle a (some r) none (some ([], n, m)))) := by
  have e1 : ' ' :: v ++ (py" a következő ") ++ z ++ e ++ py":" = ' ' :: (v ++ ((py" a következő") ++ ' ' :: (z ++ (e ++ py":")))) := by simp
  have e2 : o ++ p ++ ' ' :: v ++ (py" a következő ") ++ z ++ e ++ py":" = o ++ (p ++ ' ' :: (v ++ ((py" a következő") ++ ' ' :: (z ++ (e ++ py":"))))) := by simp
  rw [e1] at ha
  rw [e2] at hs ⊢
  obtain ⟨hE, hN⟩ := adding_ends he (py":")
  have h1 := amendedAct_read ho ha (spot_title hp _)
  have hsk := spot_skip hp ((py" a következő") ++ ' ' :: (z ++ (e ++ py":"))) (o.length + p.length)
  have ht : Known s ∨ subtitleTitle ⟨o.length + p.length, ' ' :: (v ++ ((py" a következő") ++ ' ' :: (z ++ (e ++ py":"))))⟩ = none :=
    hs.imp_right fun h => no_subtitleTitle in_sentence h
  obtain ⟨r, h2, h3⟩ := spot_read hp (ends_space _) (fun words => following_no_beside _) hsk ht
  have h4 := bare_read hz hE hN (subtitle_skip hz (e ++ py":") (o.length + p.length + 1 + v.length + 12)).2
  exact ⟨r, _, _, h2, subtitle_sentence ho h1 (barren_body (opt_some h3) (subtitle_new hz hE.word)) (subtitleBody_insert (opt_some h3) h4 he)⟩

theorem addSubtitle_tree {o p z e : Str} {a : ParsedActRef} (ho : o ∈ [py"A ", py"Az "])
    (ha : ActPhrase o.length a p ((py" a következő ") ++ z ++ e ++ py":")) (hz : SubtitleWord z) (he : Adding e)
    (hs : NoTitle (o ++ p ++ (py" a következő ") ++ z ++ e ++ py":")) :
    ∃ n m, parse (o ++ p ++ (py" a következő ") ++ z ++ e ++ py":") =
      some (withAct a (.blockAmendmentWithSubtitle a none none (some ([], n, m)))) := by
  have e1 : (py" a következő ") ++ z ++ e ++ py":" = (py" a következő") ++ ' ' :: (z ++ (e ++ py":")) := by simp
  have e2 : o ++ p ++ (py" a következő ") ++ z ++ e ++ py":" = o ++ (p ++ ((py" a következő") ++ ' ' :: (z ++ (e ++ py":")))) := by simp
  rw [e1] at ha
  rw [e2] at hs ⊢
  obtain ⟨hE, hN⟩ := adding_ends he (py":")
  have h1 := amendedAct_read ho ha (fails_text rfl)
  have h3 := (following_no_position (no_subtitleTitle (in_sentence (o := o) (p := p)) hs)).1
  have h4 := bare_read hz hE hN (subtitle_skip hz (e ++ py":") (o.length + p.length + 12)).2
  exact ⟨_, _, subtitle_sentence ho h1 (barren_body (opt_none h3) (subtitle_new hz hE.word)) (subtitleBody_insert (opt_none h3) h4 he)⟩

/-! ## Articles with subtitles -/

theorem and_halted (s : Str) (n : Nat) : Halted ⟨n, (py" és") ++ s⟩ := .inl (no_insertionToken (by decide +kernel) (by decide) n)

theorem replaceSubtitled_tree {o p v e : Str} {a : ParsedActRef} {q : ParsedPart} (ho : o ∈ [py"A ", py"Az "])
    (ha : ActPhrase o.length a p (' ' :: v ++ e ++ py":")) (hq : SubtitledText (o.length + p.length + 1) q v) (he : ReplacingSubtitle e)
    (hs : NoTitle (o ++ p ++ ' ' :: v ++ e ++ py":")) :
    ∃ n m, parse (o ++ p ++ ' ' :: v ++ e ++ py":") = some (withAct a (.blockAmendmentWithSubtitle a none (some ([q], n, m)) none)) := by
  simp only [List.append_assoc, List.cons_append] at ha hs ⊢
  have hi := subtitle_instead he (py":")
  have ht := no_subtitleTitle (in_sentence (o := o) (p := p)) hs
  -- what the first articles are read with
  have key : (Fails (token (py"hatálybalépésével összefüggő")) (' ' :: (v ++ (e ++ py":")))) ∧
      (⟨o.length + p.length, ' ' :: (v ++ (e ++ py":"))⟩ : At).skip = ⟨o.length + p.length + 1, v ++ (e ++ py":")⟩ ∧
      structuralPosition ⟨o.length + p.length, ' ' :: (v ++ (e ++ py":"))⟩ = none ∧ plainBody a ⟨o.length + p.length, ' ' :: (v ++ (e ++ py":"))⟩ = none := by
    cases hq with
    | @first z v hz hk hp =>
      have e1 : z ++ (py" és ") ++ v ++ (e ++ py":") = z ++ ((py" és ") ++ v ++ (e ++ py":")) := by simp
      rw [e1] at ht ⊢
      have hpos := subtitle_no_position hz ht
      exact ⟨subtitle_title hz _, (subtitle_skip hz _ _).2, hpos, barren_body (opt_none hpos) (subtitle_barren hz (by rintro _ ⟨⟩; decide))⟩
    | @last v b w z hk hp hb hw hz =>
      have e1 : v ++ (py" és ") ++ b ++ w ++ (py"megelőző ") ++ z ++ (e ++ py":") = v ++ ((py" és") ++ ' ' :: (b ++ (w ++ (py"megelőző ") ++ z ++ (e ++ py":")))) := by simp
      rw [e1] at ht ⊢
      have hQ := and_quiet hb (w ++ (py"megelőző ") ++ z ++ (e ++ py":"))
      have hr : ReferenceText (o.length + p.length + 1) [q] v := .one hp
      have hst := reference_start hr ((py" és") ++ ' ' :: (b ++ (w ++ (py"megelőző ") ++ z ++ (e ++ py":"))))
      have hpos := (no_position hr hQ.word (by
        simp only [besideWords, List.mem_cons, List.not_mem_nil, or_false]
        rintro t (rfl | rfl | rfl | rfl) <;> exact fails_text rfl) ht).1
      refine ⟨no_title_end hst, starts_nonspace hst _, hpos, plainBody_none (opt_none hpos) ?_ ?_⟩
      · intro r k h
        rw [reference_after hr hQ] at h
        cases h
        refine Fails.rule (s := (py" és") ++ ' ' :: (b ++ (w ++ (py"megelőző ") ++ z ++ (e ++ py":")))) ?_ _
        exact Fails.or (Fails.bind (fails_text rfl)) (Fails.bind (fails_text rfl))
      · intro r k h
        rw [no_insertion_of hr hQ (and_halted _) (starts_nonspace hst _)] at h
        cases h
  obtain ⟨k1, k2, k3, k4⟩ := key
  have h1 := amendedAct_read ho ha k1
  have h4 := subtitled_read hq hi.ends hi.quiet hi.other k2
  exact ⟨_, _, subtitle_sentence ho h1 k4 (subtitleBody_amend (opt_none k3) h4 he)⟩

theorem addSubtitled_tree {o p v e : Str} {a : ParsedActRef} {q : ParsedPart} (ho : o ∈ [py"A ", py"Az "])
    (ha : ActPhrase o.length a p ((py" a következő ") ++ v ++ e ++ py":")) (hq : SubtitledText (o.length + p.length + 13) q v) (he : Adding e)
    (hs : NoTitle (o ++ p ++ (py" a következő ") ++ v ++ e ++ py":")) :
    ∃ n m, parse (o ++ p ++ (py" a következő ") ++ v ++ e ++ py":") = some (withAct a (.blockAmendmentWithSubtitle a none none (some ([q], n, m)))) := by
  have e1 : (py" a következő ") ++ v ++ e ++ py":" = (py" a következő") ++ ' ' :: (v ++ (e ++ py":")) := by simp
  have e2 : o ++ p ++ (py" a következő ") ++ v ++ e ++ py":" = o ++ (p ++ ((py" a következő") ++ ' ' :: (v ++ (e ++ py":")))) := by simp
  rw [e1] at ha
  rw [e2] at hs ⊢
  obtain ⟨hE, hN⟩ := adding_ends he (py":")
  have h1 := amendedAct_read ho ha (fails_text rfl)
  have h3 := (following_no_position (no_subtitleTitle (in_sentence (o := o) (p := p)) hs)).1
  have key : (⟨o.length + p.length + 12, ' ' :: (v ++ (e ++ py":"))⟩ : At).skip = ⟨o.length + p.length + 13, v ++ (e ++ py":")⟩ ∧
      plainBody a ⟨o.length + p.length, (py" a következő") ++ ' ' :: (v ++ (e ++ py":"))⟩ = none := by
    cases hq with
    | @first z v hz hk hp =>
      have e1 : z ++ (py" és ") ++ v ++ (e ++ py":") = z ++ ((py" és ") ++ v ++ (e ++ py":")) := by simp
      rw [e1] at h3 ⊢
      exact ⟨(subtitle_skip hz _ _).2, barren_body (opt_none h3) (subtitle_new hz (by rintro _ ⟨⟩; decide))⟩
    | @last v b w z hk hp hb hw hz =>
      have e1 : v ++ (py" és ") ++ b ++ w ++ (py"megelőző ") ++ z ++ (e ++ py":") = v ++ ((py" és") ++ ' ' :: (b ++ (w ++ (py"megelőző ") ++ z ++ (e ++ py":")))) := by simp
      rw [e1] at h3 ⊢
      refine ⟨part_skip hp _ _, plainBody_none (opt_none h3) ?_ ?_⟩
      · intro r k h
        have := pauses_fails (pauses_word (w := py"a") (s := (py" következő") ++ ' ' :: (v ++ ((py" és") ++ ' ' :: (b ++ (w ++ (py"megelőző ") ++ z ++ (e ++ py":")))))) (plain_word rfl))
          (o.length + p.length)
        cases this.symm.trans h
      · intro r k h
        have hins : InsertionText (o.length + p.length + 1) [q] ((py"a következő ") ++ v) := .article hk (.one hp)
        have e2 : (py" a következő") ++ ' ' :: (v ++ ((py" és") ++ ' ' :: (b ++ (w ++ (py"megelőző ") ++ z ++ (e ++ py":"))))) =
            ' ' :: ((py"a következő ") ++ v ++ ((py" és") ++ ' ' :: (b ++ (w ++ (py"megelőző ") ++ z ++ (e ++ py":"))))) := by simp
        rw [e2, insertion_reads hins (and_quiet hb _) (insertion_skip hins _ _)] at h
        cases h
        refine Fails.rule (s := (py" és") ++ ' ' :: (b ++ (w ++ (py"megelőző ") ++ z ++ (e ++ py":")))) ?_ _
        exact fails_texts rfl
  obtain ⟨k1, k2⟩ := key
  have h4 := subtitled_read hq hE (adding_quiet he _) hN k1
  exact ⟨_, _, subtitle_sentence ho h1 k2 (subtitleBody_insert (opt_none h3) h4 he)⟩

/-! ## Repeals -/

theorem stop_or_subtitle {t : Str} (ht : t = [] ∨ ∃ z, SubtitleWord z ∧ t = ' ' :: z) : Ends (t ++ py".") ∧ (∀ words, Fails (besideArticle words) (t ++ py".")) ∧
    ∀ n, ∃ x, opt subtitleToken ⟨n, t ++ py"."⟩ = some (x, ⟨n + t.length, py"."⟩) := by
  rcases ht with rfl | ⟨z, hz, rfl⟩
  · refine ⟨ends_stop _, fun words => no_besideArticle (fails_az (by decide +kernel) (by decide)) (by decide +kernel), fun n => ⟨none, ?_⟩⟩
    exact opt_none (no_subtitleToken (by decide +kernel) (by decide) n)
  · refine ⟨ends_space _, subtitle_no_beside hz _, fun n => ⟨some (), opt_some ?_⟩⟩
    have h := subtitle_reads (R := py".") hz (ends_stop _) (notFirst_cons (by decide +kernel) (by decide)) (n + 1)
    have e : n + (' ' :: z).length = n + 1 + z.length := by simp; omega
    rw [e, ← h, ← (subtitle_skip hz (py".") n).2]
    exact (rule_skip _ _).symm

/-- What comes after the act in a repeal of references. -/
def repealBody (a : ParsedActRef) : Peg ParseTree := do
  let rs ← many1 listedReference
  let ts ← many (item repealedText)
  let _ ← token (py".")
  pure (withAct a (.simpleRepeal a rs ts))

theorem repeal_is : repeal = rule (do let a ← repealedAct; repealBody a) := by
  unfold repeal repealBody
  rfl

theorem no_repeal {a : ParsedActRef} {i : At} (h : reference i = none) : repealBody a i = none := by
  have h1 : listedReference i = none := by
    unfold listedReference item
    exact bind_none h
  unfold repealBody
  exact bind_none (many1_none h1)

theorem beside_not_references {x u w t : Str} {c : Char} (h : BesideText x u) (hpl : PlainText (c :: w) (t ++ py".")) (hc : c ∉ py"-–−,;évia„.")
    (hsp : isSpace c = false) (n : Nat) (a : ParsedActRef) : repealBody a ⟨n, ' ' :: (u ++ ' ' :: c :: w ++ (t ++ py"."))⟩ = none := by
  obtain ⟨y, b, g, rfl, hb, hx, hg, hy⟩ := h
  rcases hy with rfl | ⟨y, e, hy, he, rfl⟩
  · obtain ⟨d, z, hz, hd⟩ := article_head hx
    have hd' := digit_not_space hd
    have small : ∀ {a : Str}, a ∈ [py"a", py"az"] → ∀ r : Str, PlainText a (' ' :: (x ++ r)) := by
      intro a ha r
      subst hz
      have hn : d ∉ py")-–−" := by
        intro hm
        simp only [List.mem_cons, List.not_mem_nil, or_false] at hm
        rcases hm with rfl | rfl | rfl | rfl <;> exact absurd hd (by decide)
      have hl : ∀ c ∈ a, hunLower c := by
        have : ∀ c ∈ a, isLowerHun c = true := by
          simp only [List.mem_cons, List.not_mem_nil, or_false] at ha
          rcases ha with rfl | rfl <;> decide
        exact fun c hc => by simpa [isLowerHun, hunLower] using this c hc
      have hl2 : ∀ c ∈ a, c ≠ '-' := by
        simp only [List.mem_cons, List.not_mem_nil, or_false] at ha
        rcases ha with rfl | rfl <;> decide
      refine .word (by rintro rfl; simp at ha) (fun c hc => .inl (.inl (hl c hc))) (fun c hc => hl2 c (List.mem_of_mem_take hc)) ?_ (fun _ => space_not_first hd' hn)
        (.inl fun c hc => hl c (List.mem_of_mem_head? hc))
      rintro _ ⟨⟩
      decide
    simp only [Noun, List.mem_cons, List.not_mem_nil, or_false] at hb
    rcases hb with rfl | rfl | rfl
    · -- the article is read, but more words are there
      have e1 : ' ' :: ([] ++ [] ++ x ++ (py". ") ++ g ++ ' ' :: c :: w ++ (t ++ py".")) = ' ' :: (x ++ (py". ") ++ g ++ ' ' :: (c :: w ++ (t ++ py"."))) := by simp
      rw [e1]
      obtain ⟨q, hq⟩ := article_text (n := n + 1) hx hg
      have hQ := quiet_word hpl (by rintro _ ⟨⟩; exact fun h => hc (by simp at h ⊢; rcases h with h | h | h <;> simp [h]))
      have hN : ∀ {cs : Str}, (∀ c ∈ cs, c ∈ py"-–−,;évia„.") → NotFirst cs (' ' :: (c :: w ++ (t ++ py"."))) :=
        fun h => space_not_first hsp fun hm => hc (h _ hm)
      obtain ⟨h1, h2⟩ := references_before hq hQ (hN (by decide))
      unfold repealBody
      rw [bind_some (many1_steps h1 h2 (pauses_listed (pauses_word hpl) _))]
      have h3 : Fails repealedText (' ' :: (c :: w ++ (t ++ py"."))) := by
        intro m
        have haz : az ⟨m, ' ' :: (c :: w ++ (t ++ py"."))⟩ = none := by
          rw [← az_skip, show (⟨m, ' ' :: (c :: w ++ (t ++ py"."))⟩ : At).skip = _ from space_skip hsp m]
          exact fails_az hsp (by rintro rfl; exact hc (by decide)) _
        refine (bind_some (opt_none haz)).trans ?_
        exact (fails_quote (hN (by decide))).bind m
      have h4 : ∀ m, many (item repealedText) ⟨m, ' ' :: (c :: w ++ (t ++ py"."))⟩ = some ([], ⟨m, ' ' :: (c :: w ++ (t ++ py"."))⟩) :=
        fun m => many_steps (.nil _) (item_fails h3 m)
      rw [bind_some (h4 _)]
      refine bind_none (fails_token (a := '.') rfl (fun d hd => ?_) _)
      exact fun h => hN (cs := py".") (by decide) d hd (by simp [h])
    · have e1 : ' ' :: ([] ++ (py"a ") ++ x ++ (py". ") ++ g ++ ' ' :: c :: w ++ (t ++ py".")) = ' ' :: ((py"a") ++ ' ' :: (x ++ ((py". ") ++ g ++ ' ' :: c :: w ++ (t ++ py".")))) := by simp
      rw [e1]
      exact no_repeal (pauses_fails (pauses_word (small (by simp) _)) _)
    · have e1 : ' ' :: ([] ++ (py"az ") ++ x ++ (py". ") ++ g ++ ' ' :: c :: w ++ (t ++ py".")) = ' ' :: ((py"az") ++ ' ' :: (x ++ ((py". ") ++ g ++ ' ' :: c :: w ++ (t ++ py".")))) := by simp
      rw [e1]
      exact no_repeal (pauses_fails (pauses_word (small (by simp) _)) _)
  · obtain ⟨c1, d, t1, e1, h1, _⟩ := romans_head hy (' ' :: e ++ (py" ") ++ b ++ x ++ (py". ") ++ g ++ ' ' :: c :: w ++ (t ++ py"."))
    have e2 : ' ' :: (y ++ (py". ") ++ e ++ (py" ") ++ b ++ x ++ (py". ") ++ g ++ ' ' :: c :: w ++ (t ++ py".")) = ' ' :: c1 :: d :: t1 := by
      rw [← e1]; simp
    rw [e2]
    have hs1 := upper_not_space (romanDigit_upper h1)
    refine no_repeal (fails_reference (fun k => ?_) _)
    rw [dropWhile_space, dropWhile_cons_of hs1]
    refine fails_start hs1 ?_
    have : ∀ c ∈ py"IVXLCDM", isAsciiDigit c = false ∧ isLowerAz c = false ∧ c ≠ '(' := by decide
    obtain ⟨a1, a2, a3⟩ := this c1 h1
    cases k <;> simp [Begins, a1, a2, a3]
/-- No references are repealed. -/
theorem spot_not_references {s : Spot} {v t : Str} (hp : SpotText s v) (ht : t = [] ∨ ∃ z, SubtitleWord z ∧ t = ' ' :: z) (n : Nat) (a : ParsedActRef) :
    repealBody a ⟨n, ' ' :: (v ++ (t ++ py"."))⟩ = none := by
  have ends : ∀ {w : Str}, (w.all isLowerHun && decide (2 < w.length)) = true → PlainText w (t ++ py".") := by
    intro w hw
    simp only [Bool.and_eq_true, decide_eq_true_eq] at hw
    have hl : ∀ c ∈ w, isLowerHun c = true := by simpa using hw.1
    have hR : ∀ c ∈ (t ++ py".").head?, ¬ hunLetter c ∧ c ≠ '-' := by
      rcases ht with rfl | ⟨z, hz, rfl⟩ <;> rintro _ ⟨⟩ <;> decide
    have hu : ∀ c ∈ w, hunLower c := fun c hc => by simpa [isLowerHun, hunLower] using hl c hc
    refine .word (by rintro rfl; simp at hw) (fun c hc => .inl (.inl (hu c hc))) (fun c hc => ?_) hR (fun h => absurd hw.2 (by omega))
      (.inl fun c hc => hu c (List.mem_of_mem_head? hc))
    rintro rfl
    exact absurd (hl _ (List.mem_of_mem_take hc)) (by decide)
  cases hp with
  | division h =>
    refine no_repeal (fails_reference (fun k => ?_) _)
    obtain ⟨c, t', e, hs, _⟩ := division_first h (t ++ py".")
    have := division_parts h (t ++ py".") k
    rw [e] at this ⊢
    rw [dropWhile_space, dropWhile_cons_of hs]
    exact this
  | before h he =>
    simp only [List.mem_cons, List.not_mem_nil, or_false] at he
    rcases he with rfl | rfl <;> exact beside_not_references h (ends (by decide +kernel)) (by decide) (by decide +kernel) _ _
  | after h he =>
    simp only [List.mem_cons, List.not_mem_nil, or_false] at he
    rcases he with rfl | rfl <;> exact beside_not_references h (ends (by decide +kernel)) (by decide) (by decide +kernel) _ _

theorem repealSpot_tree {o b p v t : Str} {a : ParsedActRef} {s : Spot} (ho : o ∈ [py"Nem lép hatályba ", py"Hatályát veszti "]) (hb : b ∈ [py"a ", py"az "])
    (ha : ActPhrase (o.length + b.length) a p (' ' :: v ++ t ++ py".")) (hp : SpotText s v) (ht : t = [] ∨ ∃ z, SubtitleWord z ∧ t = ' ' :: z)
    (hs : Known s ∨ NoTitle (o ++ b ++ p ++ ' ' :: v ++ t ++ py".")) :
    ∃ r, SpotRead s r ∧ parse (o ++ b ++ p ++ ' ' :: v ++ t ++ py".") = some (withAct a (.structuralRepeal a r)) := by
  simp only [List.append_assoc, List.cons_append] at ha hs ⊢
  obtain ⟨hE, hB, hO⟩ := stop_or_subtitle ht
  have h6 := repealedAct_read ho hb ha (spot_title hp _)
  have dot : ∀ m, token (py".") ⟨m, py"."⟩ = some (py".", ⟨m + 1, []⟩) := reads_text (rest := []) (by decide +kernel)
  have hsk := spot_skip hp (t ++ py".") (o.length + b.length + p.length)
  have hin : (⟨o.length + b.length + p.length, ' ' :: (v ++ (t ++ py"."))⟩ : At).In (o ++ (b ++ (p ++ ' ' :: (v ++ (t ++ py"."))))) := in_sentence'
  have ht' : Known s ∨ subtitleTitle ⟨o.length + b.length + p.length, ' ' :: (v ++ (t ++ py"."))⟩ = none :=
    hs.imp_right fun h => no_subtitleTitle hin h
  obtain ⟨r, h2, h3⟩ := spot_read hp hE hB hsk ht'
  obtain ⟨x, h4⟩ := hO (o.length + b.length + p.length + 1 + v.length)
  refine ⟨r, h2, ?_⟩
  obtain ⟨c, z, hz, hc1, hc2⟩ := first_repeal ho (b ++ (p ++ ' ' :: (v ++ (t ++ py"."))))
  have h10 : repeal ⟨0, o ++ (b ++ (p ++ ' ' :: (v ++ (t ++ py"."))))⟩ = none := by
    rw [repeal_is, hz, rule_eq hc1, ← hz, bind_some h6]
    exact spot_not_references hp ht _ _
  have h11 : structuralRepeal ⟨0, o ++ (b ++ (p ++ ' ' :: (v ++ (t ++ py"."))))⟩ =
      some (withAct a (.structuralRepeal a r), ⟨o.length + b.length + p.length + 1 + v.length + t.length + 1, []⟩) := by
    unfold structuralRepeal
    rw [hz, rule_eq hc1, ← hz, bind_some h6, bind_some h3, bind_some h4]
    exact bind_some (dot _)
  rw [hz]
  refine parse_of (k := ⟨o.length + b.length + p.length + 1 + v.length + t.length + 1, []⟩) hc1 ?_
  have hx := not_amendment (s := z) hc1 (fun h => hc2 (by simp at h ⊢; rcases h with h | h <;> simp [h]))
  rw [no_blocks, sentence_next (whole_none hx.1), sentence_next (whole_none hx.2), sentence_next (whole_none (not_enforcement hc1 hc2)), ← hz,
    sentence_next (whole_none h10), sentence_this (whole_read h11)]
  exact ⟨o ++ (b ++ (p ++ ' ' :: (v ++ t))), by rw [← hz]; simp⟩

end Verif.ActGrammar
