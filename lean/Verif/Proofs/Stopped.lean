import Verif.Spec.Stopped
import Verif.Proofs.Amendments
import Verif.Proofs.Understood

/-! # What stops the making of an act -/

namespace Verif
open Spec

/-! ## The first that is stopped -/

theorem firstStop_unique {α : Type} {stops : α → Err → Prop} (hd : ∀ x e e', stops x e → stops x e' → e = e') {l : List α} {e e' : Err}
    (h : FirstStop stops l e) (h' : FirstStop stops l e') : e = e' := by
  obtain ⟨b, x, a, rfl, h1, h2⟩ := h
  obtain ⟨b', x', a', he, h1', h2'⟩ := h'
  rcases List.append_eq_append_iff.1 he with ⟨c, rfl, hc⟩ | ⟨c, rfl, hc⟩
  · cases c with
    | nil => cases hc; exact hd _ _ _ h2 h2'
    | cons y ys => cases hc; exact absurd h2 (h1' _ (by simp) _)
  · cases c with
    | nil => cases hc; exact hd _ _ _ h2 h2'
    | cons y ys => cases hc; exact absurd h2' (h1 _ (by simp) _)

/-- The result is that of going through the list until something is stopped. -/
def StopsAt {α β : Type} (stops : α → Err → Prop) (l : List α) (r : Res β) : Prop :=
  (∀ b, r = .ok b → ∀ x ∈ l, ∀ e, ¬ stops x e) ∧ ∀ e, r = .error e → FirstStop stops l e

theorem stopsAt_nil {α β : Type} {stops : α → Err → Prop} {r : Res β} (h : ∃ b, r = .ok b) : StopsAt stops [] r := by
  obtain ⟨b, rfl⟩ := h
  exact ⟨fun _ _ x hx => (by cases hx), fun e h => (by cases h)⟩

theorem stopsAt_one {α β : Type} {stops : α → Err → Prop} {x : α} {r : Res β} (h : ∀ e, r = .error e ↔ stops x e) : StopsAt stops [x] r := by
  refine ⟨fun b hb y hy e he => ?_, fun e he => ⟨[], x, [], rfl, (fun _ h => by cases h), (h e).1 he⟩⟩
  obtain rfl := List.mem_singleton.1 hy
  rw [(h e).2 he] at hb
  cases hb

theorem stopsAt_append {α β γ : Type} {stops : α → Err → Prop} {l m : List α} {r : Res β} {f : β → Res γ} (h : StopsAt stops l r)
    (hf : ∀ b, r = .ok b → StopsAt stops m (f b)) : StopsAt stops (l ++ m) (r >>= f) := by
  cases r with
  | error e =>
    refine ⟨fun b hb => (by cases hb), fun e' he => ?_⟩
    obtain rfl : e = e' := Except.error.inj he
    obtain ⟨b, x, a, rfl, h1, h2⟩ := h.2 e rfl
    exact ⟨b, x, a ++ m, by simp, h1, h2⟩
  | ok b =>
    have hl := h.1 b rfl
    obtain ⟨h1, h2⟩ := hf b rfl
    refine ⟨fun c hc x hx => ?_, fun e he => ?_⟩
    · rcases List.mem_append.1 hx with hx | hx
      · exact hl x hx
      · exact h1 c hc x hx
    · obtain ⟨b, x, a, rfl, h3, h4⟩ := h2 e he
      refine ⟨l ++ b, x, a, by simp, fun y hy => ?_, h4⟩
      rcases List.mem_append.1 hy with hy | hy
      · exact hl y hy
      · exact h3 y hy

theorem stopsAt_then {α β γ : Type} {stops : α → Err → Prop} {l : List α} {r : Res β} {f : β → Res γ} (h : StopsAt stops l r)
    (hf : ∀ b, r = .ok b → ∃ c, f b = .ok c) : StopsAt stops l (r >>= f) := by
  simpa using stopsAt_append (m := []) h fun b hb => stopsAt_nil (hf b hb)

theorem stopsAt_exact {α β : Type} {stops : α → Err → Prop} (hd : ∀ x e e', stops x e → stops x e' → e = e') {l : List α} {r : Res β}
    (h : StopsAt stops l r) : (∀ e, r = .error e ↔ FirstStop stops l e) ∧ ((∃ b, r = .ok b) ↔ ∀ x ∈ l, ∀ e, ¬ stops x e) := by
  obtain ⟨h1, h2⟩ := h
  cases r with
  | ok b =>
    refine ⟨fun e => ⟨fun h => (by cases h), ?_⟩, ⟨fun _ => h1 b rfl, fun _ => ⟨b, rfl⟩⟩⟩
    rintro ⟨b', x, a, rfl, -, h⟩
    exact absurd h (h1 b rfl x (by simp) e)
  | error e =>
    refine ⟨fun e' => ⟨fun h => h2 e' h, fun h => ?_⟩, ⟨fun ⟨_, h⟩ => (by cases h), fun h => ?_⟩⟩
    · rw [firstStop_unique hd h (h2 e rfl)]
    · obtain ⟨b', x, a, rfl, -, hx⟩ := h2 e rfl
      exact absurd hx (h x (by simp) e)

/-! ## Amendments -/

theorem amendmentStopped_error {an : Analyzer} {n : Node} {e : Err} (h : AmendmentStopped an n e) : blockParagraph an n = .error e := by
  cases h with
  | noIntroduction h1 h2 h3 =>
    simp only [blockParagraph]
    rw [if_neg (by simpa using childrenType_quoted.2 ⟨h1, h2⟩), h3]
  | notAnalysed h1 h2 h3 h4 h5 h6 =>
    rename_i k d cs intro actual
    simp only [blockParagraph]
    rw [if_neg (by simpa using childrenType_quoted.2 ⟨h1, h2⟩), h3]
    simp only
    rw [if_neg (by omega), ← announcement_unique d.wrapUp h5, h6]
  | several h hs =>
    obtain ⟨k, d, cs, _, _, _, _, _, _, rfl, _⟩ := id h
    exact blockParagraph_several h hs
  | notRead h hc hn =>
    obtain ⟨k, d, cs, _, _, _, _, _, _, rfl, _⟩ := id h
    obtain rfl : cs = [.quoted _] := hc
    obtain ⟨intro, hi, h1, h2⟩ := blockParagraph_one h
    cases hp : parseBlockAmendment _ (splitContext intro d.wrapUp).2.1 (splitContext intro d.wrapUp).2.2 _ with
    | error e => exact h2 e hp
    | ok b =>
      obtain ⟨cs, e1, _⟩ := parseBlockAmendment_ok hp
      exact absurd e1 (hn cs)

theorem blockParagraph_error {an : Analyzer} {n : Node} (hb : Built n) (ht : n.type = .sae .paragraph) (e : Err) :
    blockParagraph an n = .error e ↔ AmendmentStopped an n e := by
  refine ⟨fun h => ?_, amendmentStopped_error⟩
  by_cases ha : ∃ p, Announces an n p
  · obtain ⟨p, ha⟩ := ha
    by_cases hs : ∃ lines, n.children = [.quoted lines]
    · obtain ⟨lines, hs⟩ := hs
      by_cases hc : ∃ cs, blockChildren p lines = .ok cs
      · obtain ⟨cs, hc⟩ := hc
        obtain ⟨m, hm⟩ := blockParagraph_parsable hb ht ha ⟨lines, cs, hs, hc⟩
        rw [hm] at h
        cases h
      · have hx := AmendmentStopped.notRead ha hs fun cs h => hc ⟨cs, h⟩
        rw [amendmentStopped_error hx] at h
        cases h
        exact hx
    · have hx := AmendmentStopped.several ha fun lines h => hs ⟨lines, h⟩
      rw [amendmentStopped_error hx] at h
      cases h
      exact hx
  · cases n with
    | sae k d cs =>
      simp only [blockParagraph] at h
      split at h
      · cases h
      · rename_i hq
        obtain ⟨q1, q2⟩ := childrenType_quoted.mp (by simpa using hq)
        cases hi : d.intro with
        | none => rw [hi] at h; cases h; exact .noIntroduction q1 q2 hi
        | some intro =>
          rw [hi] at h
          simp only at h
          split at h
          · cases h
          · rename_i hl
            cases hx : an (splitContext intro d.wrapUp).1 with
            | error e' => rw [hx] at h; cases h; exact .notAnalysed q1 q2 hi (by omega) (splitContext_actual ..) hx
            | ok r =>
              rw [hx] at h
              simp only at h
              cases hf : firstBlockAmendment r.semantic with
              | none => rw [hf] at h; cases h
              | some p => exact absurd ⟨p, announces_iff.mpr ⟨by simpa using hq, intro, r, hi, by omega, hx, hf⟩⟩ ha
    | _ => cases h

theorem mapRes_stops {α β γ : Type} {stops : γ → Err → Prop} {f : α → Res β} {g : α → List γ} : ∀ {as : List α},
    (∀ a ∈ as, StopsAt stops (g a) (f a)) → StopsAt stops (as.flatMap g) (mapRes f as) := by
  intro as
  induction as with
  | nil => intro _; exact stopsAt_nil ⟨_, rfl⟩
  | cons a as ih =>
    intro h
    rw [List.flatMap_cons, mapRes]
    exact stopsAt_append (h a (by simp)) fun b _ => stopsAt_then (ih fun x hx => h x (by simp [hx])) fun _ _ => ⟨_, rfl⟩

theorem blockParagraph_identifier {an : Analyzer} {n m : Node} (h : blockParagraph an n = .ok m) : m.identifier = n.identifier := by
  rcases blockParagraph_cases h with rfl | ⟨k, d, lines, b, position, intro, w, intro', rfl, hb, hm⟩
  · rfl
  · rw [(mkSae_ok hm).1]
    rfl

theorem blockArticle_stops {an : Analyzer} {n : Node} (hb : Built n) : StopsAt (AmendmentStopped an) (paragraphsOf n) (blockArticle an n) := by
  cases n with
  | article i t ps =>
    obtain ⟨h1, h2, -⟩ := built_article hb
    have hp : StopsAt (AmendmentStopped an) (ps.flatMap fun p => [p]) (mapRes (blockParagraph an) ps) :=
      mapRes_stops fun p hp => stopsAt_one (blockParagraph_error (h1 p hp) (h2 p hp))
    rw [List.flatMap_singleton'] at hp
    refine stopsAt_then hp fun ps' hps => mkArticle_again hb ?_
    have := mapRes_ok hps
    clear hps hp h1 h2 hb
    induction this with
    | nil => rfl
    | cons h _ ih => rw [List.map_cons, List.map_cons, ih, blockParagraph_identifier h]
  | _ => exact stopsAt_nil ⟨_, rfl⟩

theorem parseBlockAmendments_stops {an : Analyzer} {a : Act} (hb : ∀ n ∈ a.children, Built n) :
    StopsAt (AmendmentStopped an) (actParagraphs a) (parseBlockAmendments an a) :=
  stopsAt_then (mapRes_stops fun n hn => blockArticle_stops (hb n hn)) fun _ _ => ⟨_, rfl⟩

/-! ## Semantic data -/

theorem inSentence_unique {c after m m' : Str} (h : InSentence c after m) (h' : InSentence c after m') : m = m' := by
  cases h with
  | asIs h => cases h' with
    | asIs => rfl
    | stopped ha hn => exact absurd (h ha) hn
  | stopped ha hn => cases h' with
    | asIs h => exact absurd (h ha) hn
    | stopped => rfl

theorem sentence_notAnalysed {an : Analyzer} {t pre post core m : Str} {x : Err} (defs : List ActIdAbbreviation) (hl : ListItem t core)
    (hc : post = [] → core ≠ []) (hm : InSentence core post m) (looked : LookedAt (pre ++ m ++ post)) (hx : an (pre ++ m ++ post) = .error x) :
    sentence an t pre post defs = .error x := by
  obtain ⟨m', hm', hs⟩ := fixListElementEnd_total hl hc
  obtain rfl := inSentence_unique hm hs
  unfold sentence parseText
  simp only [hm', bind, Except.bind]
  rw [if_neg (by have := looked.1; omega), if_neg (by simpa using (interesting_iff _).2 looked.2), hx]

theorem sentence_nothing {an : Analyzer} {t pre : Str} (defs : List ActIdAbbreviation) (hl : ListItem t []) :
    sentence an t pre [] defs = .error .indexError := by
  unfold sentence parseText fixListElementEnd
  simp [stripJunk_item hl, bind, Except.bind]

theorem sentenceStopped_error {an : Analyzer} {e : Entry} {x : Err} (defs : List ActIdAbbreviation) (h : SentenceStopped an e x) :
    own an e defs = .error x := by
  unfold own
  cases h with
  | nothing own last h =>
    rcases own with ht | ⟨ht, hi⟩
    · simp only [ht]
      rcases last with hl | hl
      · rw [hl]; exact sentence_nothing defs h
      · rw [ht] at hl; cases hl
    · simp only [ht, hi]
      exact sentence_nothing defs h
  | notAnalysed more h looked hx =>
    cases h with
    | text own hl hm =>
      simp only [own]
      refine sentence_notAnalysed defs hl (fun ha hc => more _ (.inl own) (.inl ha) (hc ▸ hl)) hm looked hx
    | intro own own' hl hm =>
      simp only [own, own']
      refine sentence_notAnalysed defs hl (fun _ hc => more _ (.inr ⟨own, own'⟩) (.inr own) (hc ▸ hl)) hm (by simpa using looked)
        (by simpa using hx)

theorem own_error {an : Analyzer} (hap : ∀ s r, an s = .ok r → EndApart r) {e : Entry} (hi : ∀ t, HasOwn e.data t → ∃ core, ListItem t core)
    (defs : List ActIdAbbreviation) (x : Err) : own an e defs = .error x ↔ SentenceStopped an e x := by
  refine ⟨fun h => ?_, sentenceStopped_error defs⟩
  by_cases hn : ∃ t, HasOwn e.data t ∧ Last e ∧ ListItem t []
  · obtain ⟨t, h1, h2, h3⟩ := hn
    have hx := SentenceStopped.nothing (analyze := an) h1 h2 h3
    rw [sentenceStopped_error defs hx] at h
    cases h
    exact hx
  · have more : ∀ t, HasOwn e.data t → Last e → ¬ ListItem t [] := fun t h1 h2 h3 => hn ⟨t, h1, h2, h3⟩
    by_cases ha : ∃ s stop x, SentenceOf e s stop ∧ LookedAt s ∧ an s = .error x
    · obtain ⟨s, stop, y, h1, h2, h3⟩ := ha
      have hx := SentenceStopped.notAnalysed more h1 h2 h3
      rw [sentenceStopped_error defs hx] at h
      cases h
      exact hx
    · exfalso
      obtain ⟨r, hr⟩ := own_total (an := an) (e := e) ⟨fun t ht => ⟨hi t ht, more t ht⟩, fun s stop hs hl => by
        cases hx : an s with
        | ok r => exact ⟨r, rfl, hap s r hx⟩
        | error y => exact absurd ⟨s, stop, y, hs, hl, hx⟩ ha⟩ defs
      rw [hr] at h
      cases h

theorem sentenceStopped_unique {an : Analyzer} {e : Entry} {x y : Err} (h : SentenceStopped an e x) (h' : SentenceStopped an e y) : x = y := by
  have := (sentenceStopped_error [] h).symm.trans (sentenceStopped_error [] h')
  exact Except.error.inj this

theorem amendmentStopped_unique {an : Analyzer} {n : Node} {x y : Err} (h : AmendmentStopped an n x) (h' : AmendmentStopped an n y) : x = y := by
  have := (amendmentStopped_error h).symm.trans (amendmentStopped_error h')
  exact Except.error.inj this

theorem scratchL_stops {an : Analyzer} {stops : Entry → Err → Prop} : ∀ {cs : List Node} {pre post : Str} (defs : List ActIdAbbreviation),
    (∀ c ∈ cs, ∀ defs, StopsAt stops (elements pre post c) (scratchSae an c pre post defs)) →
    StopsAt stops (elementsL pre post cs) (scratchL an cs pre post defs) := by
  intro cs
  induction cs with
  | nil => intro pre post defs _; rw [scratchL]; exact stopsAt_nil ⟨_, rfl⟩
  | cons c cs ih =>
    intro pre post defs h
    rw [elementsL, scratchL]
    exact stopsAt_append (h c (List.mem_cons_self ..) defs) fun x _ =>
      stopsAt_then (ih (defs ++ x.2) fun d hd => h d (List.mem_cons_of_mem _ hd)) fun _ _ => ⟨_, rfl⟩

/-- Whatever is known of definitions, this is what stops these elements. -/
def StoppedBy (an : Analyzer) (stops : Entry → Err → Prop) (es : List Entry) : Prop :=
  ∀ e ∈ es, ∀ defs x, own an e defs = .error x ↔ stops e x

theorem scratchSae_stops {an : Analyzer} {stops : Entry → Err → Prop} (n : Node) : ∀ (pre post : Str)
    (defs : List ActIdAbbreviation), Built n → Whole n → StoppedBy an stops (elements pre post n) →
    StopsAt stops (elements pre post n) (scratchSae an n pre post defs) := by
  induction n using Node.ind with
  | sae k d cs ih =>
    intro pre post defs hb hw hu
    cases hk : k.canBeSemanticParsed with
    | false =>
      rw [elements_container _ _ _ _ hk]
      exact stopsAt_nil ⟨_, scratchSae_other (fun _ _ _ e => by cases e; exact hk) pre post defs⟩
    | true =>
      rw [elements_sae _ _ _ _ hk] at hu ⊢
      have hown := stopsAt_one (hu _ (List.mem_cons_self ..) defs)
      rw [scratchSae]
      simp only [hk, Bool.not_true, Bool.false_eq_true, if_false]
      cases ht : d.text with
      | some t =>
        obtain ⟨-, hwf, -, -⟩ := built_sae hb
        obtain ⟨hi, hwu, rfl⟩ := hwf (by rw [ht]; simp)
        simp only
        rw [elementsL]
        refine stopsAt_then hown fun r hr => ?_
        have : mkSae k (d.withSemantics r) (optChildren []) = .ok (.sae k (d.withSemantics r) []) := by
          simp [mkSae, optChildren, childrenType, validText, validChildren, SaeData.withSemantics, hi, hwu, bind, Except.bind]
        rw [this]
        exact ⟨_, rfl⟩
      | none =>
        have hne : cs ≠ [] := fun e => hw k d (e ▸ .self _) ht
        simp only
        refine stopsAt_append (l := [_]) hown fun r hr => ?_
        rw [if_neg (by simpa using hne)]
        refine stopsAt_then (scratchL_stops (an := an) (cs := cs) (pre := withIntro pre d.intro) (post := withWrapUp post d.wrapUp)
          (defs ++ r.abbreviations) fun c hc defs => ih c hc _ _ defs ((built_sae hb).1 c hc)
            (fun k' d' hi => hw k' d' (.deeper (n := .sae k d cs) hc hi))
            fun e he => hu e (List.mem_cons_of_mem _ (mem_elementsL hc he))) fun x hx => ?_
        obtain ⟨hs, -, -⟩ := scratchL_ok (show _ = Except.ok (x.1, x.2) from hx)
        obtain ⟨n, hn⟩ := mkSae_again (d' := d.withSemantics r) hb ((canBe_iff k).1 hk) ht hne (stripL_types hs)
        rw [hn]
        exact ⟨_, rfl⟩
  | _ =>
    intro pre post defs _ _ _
    rw [elements_not_sae (by intros; exact fun e => by cases e)]
    exact stopsAt_nil ⟨_, scratchSae_other (by intros; contradiction) pre post defs⟩

theorem scratchArticle_stops {an : Analyzer} {stops : Entry → Err → Prop} {n : Node} (defs : List ActIdAbbreviation)
    (hb : Built n) (hw : Whole n) (hu : StoppedBy an stops (articleElements n)) :
    StopsAt stops (articleElements n) (scratchArticle an n defs) := by
  cases n with
  | article i t ps =>
    unfold scratchArticle
    refine stopsAt_then (scratchL_stops (an := an) (cs := ps) (pre := []) (post := []) defs fun c hc defs =>
      scratchSae_stops c [] [] defs ((built_article hb).1 c hc) (fun k' d' hi => hw k' d' (.deeper (n := .article i t ps) hc hi))
        fun e he => hu e (mem_elementsL hc he)) fun x hx => ?_
    obtain ⟨hs, -, -⟩ := scratchL_ok (show _ = Except.ok (x.1, x.2) from hx)
    obtain ⟨m, hm⟩ := mkArticle_again hb (stripL_identifiers hs)
    rw [hm]
    exact ⟨_, rfl⟩
  | _ => exact stopsAt_nil ⟨_, rfl⟩

theorem scratchArticles_stops {an : Analyzer} {stops : Entry → Err → Prop} : ∀ {cs : List Node}
    (defs : List ActIdAbbreviation), (∀ c ∈ cs, Built c) → (∀ c ∈ cs, Whole c) → StoppedBy an stops (cs.flatMap articleElements) →
    StopsAt stops (cs.flatMap articleElements) (scratchArticles an cs defs) := by
  intro cs
  induction cs with
  | nil => intro defs _ _ _; exact stopsAt_nil ⟨_, rfl⟩
  | cons c cs ih =>
    intro defs hb hw hu
    rw [List.flatMap_cons] at hu ⊢
    rw [scratchArticles]
    exact stopsAt_append (scratchArticle_stops defs (hb c (List.mem_cons_self ..)) (hw c (List.mem_cons_self ..))
        fun e he => hu e (List.mem_append_left _ he)) fun x _ =>
      stopsAt_then (ih (defs ++ x.2) (fun d hd => hb d (List.mem_cons_of_mem _ hd)) (fun d hd => hw d (List.mem_cons_of_mem _ hd))
        fun e he => hu e (List.mem_append_right _ he)) fun _ _ => ⟨_, rfl⟩

theorem addSemantics_stops {an : Analyzer} {stops : Entry → Err → Prop} {a : Act} (hb : ∀ n ∈ a.children, Built n)
    (hn : ∀ e ∈ actElements a, e.data.semantic = none) (hw : ∀ n ∈ a.children, Whole n) (hl : StoppedBy an stops (actElements a)) :
    StopsAt stops (actElements a) (addSemantics an a) := by
  have typed : ∀ c ∈ a.children, typedArticle c := fun c hc => typedArticle_of_built (hb c hc)
  obtain ⟨h1, h2⟩ := scratchArticles_stops [] hb hw hl
  refine ⟨fun b h => ?_, fun e h => ?_⟩
  · obtain ⟨x, hx, -⟩ := (addSemantics_fresh typed hn).1 h
    exact h1 x hx
  · unfold addSemantics at h
    split at h
    · cases h
    · rw [semanticsArticles_eq an a.children {} typed (.inr hn)] at h
      cases hs : scratchArticles an a.children [] with
      | error x =>
        refine h2 e ?_
        simp only [hs, bind, Except.bind] at h
        rw [hs, Except.error.inj h]
      | ok x => simp [hs, bind, Except.bind] at h

/-! ## The classes of exceptions -/

theorem sentence_error {an : Analyzer} (hap : ∀ s r, an s = .ok r → EndApart r) {t pre post : Str} {defs : List ActIdAbbreviation} {x : Err} :
    sentence an t pre post defs = .error x ↔ fixListElementEnd t post.isEmpty = .error x ∨
      ∃ m, fixListElementEnd t post.isEmpty = .ok m ∧ LookedAt (pre ++ m ++ post) ∧ an (pre ++ m ++ post) = .error x := by
  cases hm : fixListElementEnd t post.isEmpty with
  | error y => simp [sentence, parseText, hm, bind, Except.bind]
  | ok m =>
    constructor
    · intro h
      by_cases ha : LookedAt (pre ++ m ++ post) ∧ ∃ y, an (pre ++ m ++ post) = .error y
      · obtain ⟨hl, y, hy⟩ := ha
        refine .inr ⟨m, rfl, hl, ?_⟩
        unfold sentence parseText at h
        simp only [hm, bind, Except.bind] at h
        rw [if_neg (by have := hl.1; omega), if_neg (by simpa using (interesting_iff _).2 hl.2), hy] at h
        rw [hy]
        exact h
      · obtain ⟨r, hr⟩ := sentence_total (an := an) (pre := pre) (core := []) (defs := defs) hm fun hl => by
          cases hx : an (pre ++ m ++ post) with
          | ok r => exact ⟨r, rfl, hap _ r hx⟩
          | error y => exact absurd ⟨hl, y, hx⟩ ha
        rw [hr] at h
        cases h
    · rintro (h | ⟨m', h, hl, hy⟩)
      · cases h
      · cases h
        unfold sentence parseText
        simp only [hm, bind, Except.bind]
        rw [if_neg (by have := hl.1; omega), if_neg (by simpa using (interesting_iff _).2 hl.2), hy]

theorem own_stoppedBy {an : Analyzer} (hap : ∀ s r, an s = .ok r → EndApart r) (es : List Entry) :
    StoppedBy an (fun e x => own an e [] = .error x) es := by
  intro e _ defs x
  show own an e defs = .error x ↔ own an e [] = .error x
  unfold own
  cases e.data.text with
  | some t => simp only; rw [sentence_error hap, sentence_error hap]
  | none =>
    cases e.data.intro with
    | some i => simp only; rw [sentence_error hap, sentence_error hap]
    | none => simp only [reduceCtorEq]

theorem own_error_class {an : Analyzer} (hap : ∀ s r, an s = .ok r → EndApart r) {e : Entry} {defs : List ActIdAbbreviation} {x : Err}
    (h : own an e defs = .error x) : x = .indexError ∨ ∃ s, an s = .error x := by
  have key : ∀ {t pre post}, sentence an t pre post defs = .error x → x = .indexError ∨ ∃ s, an s = .error x := by
    intro t pre post h
    rcases (sentence_error hap).1 h with h | ⟨m, -, -, h⟩
    · unfold fixListElementEnd at h
      simp only at h
      split at h
      · split at h
        · exact .inl (Except.error.inj h).symm
        · cases h
      · cases h
    · exact .inr ⟨_, h⟩
  unfold own at h
  split at h
  · exact key h
  · split at h
    · exact key h
    · cases h

end Verif
