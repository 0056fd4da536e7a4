import Verif.Proofs.Date
import Verif.Proofs.Ordinals
import Verif.Proofs.Roman
import Verif.Spec.Grammar
import Verif.Proofs.Collector
import Verif.Props.References

/-! # Lemmas about the analysis of sentences -/

namespace Verif

open Verif.Spec

/-! ## Places -/

theorem iterLevels_act {c : Collector} {gs : List RefItem} (hl : ∀ l, c.lists l = listAt gs l) (stop : Int) :
    ∀ (ls : List RefLevel) (o : Int) (args : Reference) (out : List OutgoingReference),
    c.iterLevels stop ls (some o) args = .ok out → ∀ r ∈ out, r.reference.act = args.act := by
  intro ls
  induction ls with
  | nil =>
    intro o args out h r hr
    unfold Collector.iterLevels at h
    cases h
    obtain rfl := List.mem_singleton.mp hr
    rfl
  | cons l ls ih =>
    intro o args out h r hr
    have hne : sortValues (c.lists l) ≠ [] := by
      intro h0
      have hp := (sortValues_perm (c.lists l)).length_eq
      rw [h0, hl, listAt] at hp
      by_cases he : valuesAt gs l = []
      · rw [if_pos he] at hp; cases hp
      · rw [if_neg he] at hp; exact he (List.eq_nil_of_length_eq_zero hp.symm)
    obtain ⟨vs, last, hs⟩ : ∃ vs last, sortValues (c.lists l) = vs ++ [last] :=
      ⟨_, _, (List.dropLast_concat_getLast hne).symm⟩
    obtain ⟨rest, rfl, hiter⟩ := iterLevels_cons hs h
    rcases List.mem_append.mp hr with hr | hr
    · cases vs with
      | nil => cases hr
      | cons v vs =>
        rcases List.mem_cons.mp hr with rfl | hr
        · exact act_set ..
        · obtain ⟨w, -, rfl⟩ := List.mem_map.mp hr
          exact act_set ..
    · rw [ih _ _ _ hiter r hr, act_set]

/-- Every value is in its place, and higher levels come first. -/
structure PlacedValues (gs : List RefItem) (ls : List RefLevel) (o stop : Int) : Prop where
  inside : ∀ l ∈ ls, ∀ v ∈ valuesAt gs l, o ≤ v.startPos ∧ v.startPos < v.endPos ∧ v.endPos ≤ stop
  levels : ∀ l ∈ ls, ∀ m ∈ ls, Above l m → ∀ v ∈ valuesAt gs l, ∀ w ∈ valuesAt gs m, v.endPos ≤ w.startPos

theorem iterLevels_placed {c : Collector} {gs : List RefItem} (hl : ∀ l, c.lists l = listAt gs l) (stop : Int) :
    ∀ (ls : List RefLevel) (o : Int) (args : Reference) (out : List OutgoingReference), ls.Pairwise Above →
    PlacedValues gs ls o stop → o < stop → c.iterLevels stop ls (some o) args = .ok out →
    ∀ r ∈ out, o ≤ r.startPos ∧ r.startPos < r.endPos ∧ r.endPos ≤ stop := by
  intro ls
  induction ls with
  | nil =>
    intro o args out _ _ ho h r hr
    unfold Collector.iterLevels at h
    cases h
    obtain rfl := List.mem_singleton.mp hr
    exact ⟨Int.le_refl _, ho, Int.le_refl _⟩
  | cons l ls ih =>
    intro o args out hp hv ho h r hr
    obtain ⟨hpl, hp⟩ := List.pairwise_cons.mp hp
    by_cases he : valuesAt gs l = []
    · have hs : sortValues (c.lists l) = [] ++ [⟨none, 0, 0⟩] := by rw [hl, listAt, if_pos he]; rfl
      obtain ⟨rest, hout, hiter⟩ := iterLevels_cons hs h
      have hout : out = rest := hout
      subst hout
      exact ih o _ _ hp ⟨fun l hl => hv.inside l (List.mem_cons_of_mem _ hl),
        fun l hl m hm => hv.levels l (List.mem_cons_of_mem _ hl) m (List.mem_cons_of_mem _ hm)⟩ ho hiter r hr
    · have hla : c.lists l = valuesAt gs l := by rw [hl, listAt, if_neg he]
      have hperm := sortValues_perm (valuesAt gs l)
      have hne : sortValues (valuesAt gs l) ≠ [] := by
        intro h0
        have := hperm.length_eq
        rw [h0] at this
        exact he (List.eq_nil_of_length_eq_zero this.symm)
      obtain ⟨vs, last, hs⟩ : ∃ vs last, sortValues (valuesAt gs l) = vs ++ [last] :=
        ⟨_, _, (List.dropLast_concat_getLast hne).symm⟩
      have hin : ∀ v ∈ vs ++ [last], v ∈ valuesAt gs l := fun v hv => hperm.mem_iff.mp (hs ▸ hv)
      have hins := fun v hm => hv.inside l (List.mem_cons_self ..) v (hin v hm)
      rw [← hla] at hs
      obtain ⟨rest, rfl, hiter⟩ := iterLevels_cons hs h
      have hlast := hins last (by simp)
      rcases List.mem_append.mp hr with hr | hr
      · cases vs with
        | nil => cases hr
        | cons v vs =>
          rcases List.mem_cons.mp hr with rfl | hr
          · have := hins v (by simp)
            exact ⟨Int.le_refl _, by show o < v.endPos; omega, this.2.2⟩
          · obtain ⟨w, hw, rfl⟩ := List.mem_map.mp hr
            exact hins w (by simp [hw])
      · have hb : o ≤ (if vs = [] then o else last.startPos) ∧ (if vs = [] then o else last.startPos) ≤ last.startPos := by
          by_cases h0 : vs = []
          · rw [if_pos h0]; exact ⟨Int.le_refl _, hlast.1⟩
          · rw [if_neg h0]; exact ⟨hlast.1, Int.le_refl _⟩
        have hrest := ih _ _ _ hp ⟨fun m hm w hw => by
            have h1 := hv.inside m (List.mem_cons_of_mem _ hm) w hw
            have h2 := hv.levels l (List.mem_cons_self ..) m (List.mem_cons_of_mem _ hm) (hpl m hm) last (hin last (by simp)) w hw
            omega,
          fun l hl m hm => hv.levels l (List.mem_cons_of_mem _ hl) m (List.mem_cons_of_mem _ hm)⟩ (by omega) hiter r hr
        omega

/-- Consecutive items of one part. -/
theorem neighbours_in_part : ∀ {parts : List ParsedPart} {p q : List RefItem} {x y : RefItem},
    parts.Pairwise (fun p q => p.kind ≠ q.kind) → (∀ p ∈ parts, p.singles.Pairwise fun x y => x.2.2 ≤ y.2.1) →
    parts.flatMap ParsedPart.items = p ++ x :: y :: q → Neighbours x y → x.endPos ≤ y.startPos := by
  intro parts p q x y hk hs h hn
  have hmem : ∀ {part : ParsedPart} {z : RefItem}, z ∈ part.items → z.kind = part.kind := by
    intro part z hz
    rcases List.mem_append.mp hz with hz | hz <;> obtain ⟨w, -, rfl⟩ := List.mem_map.mp hz <;> rfl
  -- all pairs of singles of the same kind are in order
  have key : (parts.flatMap ParsedPart.items).Pairwise fun x y =>
      x.kind = y.kind → (∃ a, x.data = .one a) → (∃ b, y.data = .one b) → x.endPos ≤ y.startPos := by
    clear h
    induction parts with
    | nil => exact .nil
    | cons part parts ih =>
      obtain ⟨hk1, hk2⟩ := List.pairwise_cons.mp hk
      rw [List.flatMap_cons]
      refine List.pairwise_append.mpr ⟨?_, ih hk2 fun p hp => hs p (List.mem_cons_of_mem _ hp), ?_⟩
      · refine List.pairwise_append.mpr ⟨?_, ?_, ?_⟩
        · refine List.pairwise_map.mpr ((hs part (List.mem_cons_self ..)).imp fun h _ _ _ => h)
        · refine List.pairwise_map.mpr (List.pairwise_of_forall fun _ _ _ h => ?_)
          obtain ⟨a, h⟩ := h; cases h
        · intro a _ b hb _ _ h
          obtain ⟨w, -, rfl⟩ := List.mem_map.mp hb
          obtain ⟨c, h⟩ := h; cases h
      · intro a ha b hb hab _ _
        obtain ⟨part', hp', hb⟩ := List.mem_flatMap.mp hb
        rw [hmem ha, hmem hb] at hab
        exact absurd hab (hk1 part' hp')
  rw [h] at key
  obtain ⟨-, h1, -⟩ := List.pairwise_append.mp key
  obtain ⟨hkind, a, b, ha, hb, -⟩ := hn
  exact (List.pairwise_cons.mp h1).1 y (List.mem_cons_self ..) hkind ⟨a, ha⟩ ⟨b, hb⟩

theorem placedValues {r : ParsedRef} {gs : List RefItem} {length : Int} (hp : RefPlaced length r)
    (hg : Grouped (r.1.flatMap ParsedPart.items) gs) (ls : List RefLevel) : PlacedValues gs ls r.2.1 r.2.2 := by
  have hb : ∀ g ∈ gs, ∃ x ∈ r.1.flatMap ParsedPart.items, ∃ y ∈ r.1.flatMap ParsedPart.items,
      itemLevel x = itemLevel g ∧ itemLevel y = itemLevel g ∧ g.startPos = x.startPos ∧ g.endPos = y.endPos ∧
      (x = y ∨ x.endPos ≤ y.startPos) := by
    intro g hgm
    rcases hg.groups g hgm with h | ⟨p, x, y, q, a, b, he, hx, hy, hn, rfl⟩
    · exact ⟨g, h, g, h, rfl, rfl, rfl, rfl, .inl rfl⟩
    · refine ⟨x, by rw [he]; simp, y, by rw [he]; simp, rfl, ?_, rfl, rfl, .inr (neighbours_in_part hp.kinds hp.singles he hn)⟩
      show kindLevel y.kind = kindLevel x.kind
      rw [hn.1]
  refine ⟨?_, ?_⟩
  · intro l _ v hv
    obtain ⟨g, hgm, rfl, rfl⟩ := mem_valuesAt.mp hv
    obtain ⟨x, hx, y, hy, -, -, h1, h2, h3⟩ := hb g hgm
    have := hp.inside x hx
    have := hp.inside y hy
    simp only [RefItem.value]
    rcases h3 with rfl | h3 <;> omega
  · intro l _ m _ hlm v hv w hw
    obtain ⟨g, hgm, rfl, rfl⟩ := mem_valuesAt.mp hv
    obtain ⟨g', hgm', rfl, rfl⟩ := mem_valuesAt.mp hw
    obtain ⟨x, hx, y, hy, -, hyl, -, h2, -⟩ := hb g hgm
    obtain ⟨x', hx', y', hy', hxl, -, h1, -⟩ := hb g' hgm'
    have := hp.levels y hy x' hx' (by rw [hyl, hxl]; exact hlm)
    simp only [RefItem.value]
    omega

theorem convertSingle_iter {act : Option Str} {parts : List ParsedPart} {start stop : Int} {out : List OutgoingReference}
    (h : convertSingle act parts start stop = .ok out) : ∃ (c : Collector) (gs : List RefItem),
      (∀ l, c.lists l = listAt gs l) ∧ Grouped (parts.flatMap ParsedPart.items) gs ∧
      c.iterLevels stop [.articles, .paragraphs, .points, .subpoints] (some start) { act := act } = .ok out := by
  obtain ⟨c, hc, h⟩ := resBind_ok (show (({ act := act } : Collector).addAll (parts.flatMap ParsedPart.items) >>=
    fun c => c.iter (some start) stop) = .ok out from h)
  obtain ⟨c', gs, h1, h2, h3, h4⟩ := collected hc
  refine ⟨c', gs, h4, h3, ?_⟩
  unfold Collector.iter at h
  rw [h1] at h
  have h : c'.iterLevels stop [.articles, .paragraphs, .points, .subpoints] (some start) { act := c'.act } = .ok out := h
  rw [h2] at h
  exact h

theorem convertSingle_act {act : Option Str} {parts : List ParsedPart} {start stop : Int} {out : List OutgoingReference}
    (h : convertSingle act parts start stop = .ok out) : ∀ x ∈ out, x.reference.act = act := by
  obtain ⟨c, gs, h1, -, h2⟩ := convertSingle_iter h
  exact iterLevels_act h1 stop _ _ _ _ h2

theorem listed_placed {act : Option Str} {r : ParsedRef} {length : Int} {out : List OutgoingReference} (hp : RefPlaced length r)
    (h : Listed act r out) : ∀ x ∈ out, r.2.1 ≤ x.startPos ∧ x.startPos < x.endPos ∧ x.endPos ≤ r.2.2 := by
  obtain ⟨c, gs, h1, h2, h3⟩ := convertSingle_iter h
  exact iterLevels_placed h1 _ _ _ _ _ (by simp [Above, depth]) (placedValues hp h2 _) hp.whole.2.1 h3

/-! ## Names and texts -/

theorem actName_iff {a : ParsedActRef} {id : Str} : a.id = .ok id ↔ ActName a id := by
  unfold ParsedActRef.id
  constructor
  · intro h
    cases ha : a.actId with
    | some x =>
      obtain ⟨⟨year, number⟩, place⟩ := x
      rw [ha] at h
      cases h
      exact .number ha
    | none =>
      cases hb : a.abbreviation with
      | some x => rw [ha, hb] at h; cases h; exact .abbreviation ha hb
      | none => rw [ha, hb] at h; cases h
  · intro h
    cases h with
    | number h => rw [h]
    | abbreviation h hs => rw [h, hs]

theorem actName_unique {a : ParsedActRef} {i j : Str} (h : ActName a i) (h' : ActName a j) : i = j := by
  have := actName_iff.mpr h
  rw [actName_iff.mpr h'] at this
  cases this
  rfl

theorem outgoing_mention {a : ParsedActRef} {x : OutgoingReference} (h : a.outgoing = .ok x) : ActMention a x := by
  unfold ParsedActRef.outgoing at h
  obtain ⟨id, hi, h⟩ := resBind_ok h
  obtain ⟨p, hp, h⟩ := resBind_ok h
  cases h
  refine ⟨id, actName_iff.mp hi, rfl, ?_⟩
  unfold ParsedActRef.pos at hp
  cases hb : a.abbreviation with
  | some s => rw [hb] at hp; cases hp; exact .inl ⟨s.1, rfl⟩
  | none =>
    rw [hb] at hp
    cases ha : a.actId with
    | some s => rw [ha] at hp; cases hp; exact .inr ⟨rfl, s.1, rfl⟩
    | none => rw [ha] at hp; cases hp

mutual
theorem flatten_text : ∀ q : QuoteTree, q.flatten.flatten = quoteText q
  | .text s => by simp [QuoteTree.flatten, quoteText]
  | .list qs => by rw [QuoteTree.flatten, quoteText, flattenQuotes_text qs]
theorem flattenQuotes_text : ∀ qs : List QuoteTree, (flattenQuotes qs).flatten = quotesText qs
  | [] => rfl
  | q :: qs => by rw [flattenQuotes, quotesText, List.flatten_append, flatten_text q, flattenQuotes_text qs]
end

theorem dropWhile_split {α : Type} (p : α → Bool) (l : List α) : ∃ k, l = k ++ l.dropWhile p ∧ (∀ x ∈ k, p x = true) ∧
    ∀ x, (l.dropWhile p).head? = some x → p x = false := by
  induction l with
  | nil => exact ⟨[], rfl, by simp, by simp⟩
  | cons a l ih =>
    by_cases h : p a = true
    · obtain ⟨k, h1, h2, h3⟩ := ih
      rw [List.dropWhile_cons_of_pos h]
      refine ⟨a :: k, by rw [List.cons_append, ← h1], ?_, h3⟩
      intro x hx
      rcases List.mem_cons.mp hx with rfl | hx
      · exact h
      · exact h2 x hx
    · rw [List.dropWhile_cons_of_neg h]
      refine ⟨[], rfl, by simp, ?_⟩
      intro x hx
      cases hx
      simpa using h

theorem pyStrip_stripped (s : Str) : Stripped s (pyStrip s) := by
  obtain ⟨l, h1, h2, h3⟩ := dropWhile_split isSpace s
  obtain ⟨r, k1, k2, k3⟩ := dropWhile_split isSpace (s.dropWhile isSpace).reverse
  have hs : s.dropWhile isSpace = pyStrip s ++ r.reverse := by
    have := congrArg List.reverse k1
    rw [List.reverse_reverse, List.reverse_append] at this
    exact this
  refine ⟨l, r.reverse, ?_, h2, by simpa using k2, ?_, ?_⟩
  · rw [List.append_assoc, ← hs]; exact h1
  · intro c hc
    refine h3 c ?_
    rw [hs, List.head?_append, hc]
    rfl
  · intro c hc
    refine k3 c ?_
    unfold pyStrip at hc
    rw [List.getLast?_reverse] at hc
    exact hc

theorem convertQuote_quoted {q : List QuoteTree} {s : Str} (h : convertQuote q = .ok s) : Quoted q s := by
  unfold convertQuote at h
  cases q with
  | nil => cases h
  | cons a rest =>
    have hl : (a :: rest).getLast? = some ((a :: rest).getLast (by simp)) := List.getLast?_eq_some_getLast _
    rw [hl] at h
    simp only [List.head?_cons] at h
    split at h
    · rename_i h1 h2
      cases h1
      cases h
      have hr : rest ≠ [] := by
        intro h0
        subst h0
        simp at h2
      refine ⟨rest.dropLast, ?_, ?_⟩
      · have : (QuoteTree.text ['„'] :: rest).getLast (by simp) = rest.getLast hr := List.getLast_cons hr
        rw [this] at h2
        have h2 : rest.getLast hr = .text ['”'] := Option.some.inj h2
        rw [List.cons_append, ← h2, List.dropLast_concat_getLast]
      · rw [flattenQuotes_text]
        exact pyStrip_stripped _
    · cases h
    · cases h

theorem relativeTo_completes (r context : Reference) : Completes context r (r.relativeTo context) := by
  have hr := Props.relativeTo_components r context
  by_cases hn : ∀ x ∈ r.components, x = none
  · refine ⟨r.components, [], by simp, hn, by simp, ?_⟩
    have : r = {} := by
      obtain ⟨a, b, c, d, e⟩ := r
      simp [Reference.components] at hn
      obtain ⟨rfl, rfl, rfl, rfl, rfl⟩ := hn
      rfl
    subst this
    rw [(Props.relativeTo_unit context).2]
    simp [Reference.components]
  · obtain ⟨p, i, s, h1, h2⟩ : ∃ p i s, r.components = p ++ some i :: s ∧ ∀ x ∈ p, x = none := by
      generalize r.components = l at hn
      clear hr
      induction l with
      | nil => simp at hn
      | cons a l ih =>
        cases a with
        | some i => exact ⟨[], i, l, rfl, by simp⟩
        | none =>
          obtain ⟨p, i, s, h1, h2⟩ := ih (fun h => hn (by simpa using h))
          exact ⟨none :: p, i, s, by rw [h1]; rfl, by simpa using h2⟩
    exact ⟨p, some i :: s, h1, h2, by simp, hr p s i h2 h1⟩

theorem relativize_continued : ∀ (context : Reference) (xs : List OutgoingReference),
    Continued context xs (relativize context xs).1
  | context, [] => .nil context
  | context, x :: xs => .cons (relativeTo_completes x.reference context) (relativize_continued _ xs)

theorem Spec.Continued.append : ∀ {context : Reference} {xs zs ws : List OutgoingReference},
    Continued (relativize context xs).2 zs ws → Continued context (xs ++ zs) ((relativize context xs).1 ++ ws)
  | _, [], _, _, h => h
  | context, x :: xs, _, _, h => .cons (relativeTo_completes x.reference context) (Spec.Continued.append (xs := xs) h)

theorem convertMultiple_listed : ∀ {rs : List ParsedRef} {context : Reference} {ys : List OutgoingReference},
    convertMultiple context rs = .ok ys → ListedInContext context rs ys
  | [], context, ys, h => by cases h; exact ⟨[], .nil, .nil context⟩
  | r :: rs, context, ys, h => by
    unfold convertMultiple at h
    obtain ⟨xs, hx, h⟩ := resBind_ok h
    obtain ⟨rest, hr, h⟩ := resBind_ok h
    cases h
    obtain ⟨xss, h1, h2⟩ := convertMultiple_listed hr
    exact ⟨xs :: xss, .cons hx h1, h2.append⟩

theorem convertEach_listed : ∀ {rs : List ParsedRef} {act : Option Str} {ys : List OutgoingReference},
    convertEach act rs = .ok ys → ∃ xss, Both (Listed act) rs xss ∧ ys = xss.flatten
  | [], _, _, h => by cases h; exact ⟨[], .nil, rfl⟩
  | r :: rs, _, _, h => by
    unfold convertEach at h
    obtain ⟨xs, hx, h⟩ := resBind_ok h
    obtain ⟨rest, hr, h⟩ := resBind_ok h
    cases h
    obtain ⟨xss, h1, rfl⟩ := convertEach_listed hr
    exact ⟨xs :: xss, .cons hx h1, rfl⟩

theorem convertPotentialInText_one {act : Str} {r : Option ParsedRef} {x : Option OutgoingReference}
    (h : convertPotentialInText act r = .ok x) : OneListed act r x := by
  unfold convertPotentialInText at h
  cases r with
  | none => cases h; exact .inl ⟨rfl, rfl⟩
  | some p =>
    obtain ⟨parts, start, stop⟩ := p
    simp only at h
    unfold convertPotential at h
    obtain ⟨xs, hx, h⟩ := resBind_ok h
    refine .inr ⟨_, xs, rfl, hx, ?_⟩
    match xs, h with
    | [], h => cases h; exact .inr ⟨by simp, rfl⟩
    | [y], h => cases h; exact .inl ⟨y, rfl, rfl⟩
    | _ :: _ :: _, h => cases h; exact .inr ⟨by simp, rfl⟩

theorem oneListed_unique {act : Str} {r : Option ParsedRef} {x y : Option OutgoingReference} (h : OneListed act r x)
    (h' : OneListed act r y) : x = y := by
  rcases h with ⟨rfl, rfl⟩ | ⟨p, xs, rfl, h1, h2⟩
  · rcases h' with ⟨-, rfl⟩ | ⟨p, xs, h, -⟩
    · rfl
    · cases h
  · rcases h' with ⟨h, -⟩ | ⟨p, ys, h, k1, k2⟩
    · cases h
    · cases h
      unfold Listed at h1 k1
      rw [h1] at k1
      cases k1
      rcases h2 with ⟨z, rfl, rfl⟩ | ⟨h2, rfl⟩ <;> rcases k2 with ⟨w, k2, rfl⟩ | ⟨k2, rfl⟩
      · cases k2; rfl
      · exact absurd rfl (k2 z)
      · exact absurd k2 (h2 w)
      · rfl

theorem convertPotentialReference_one {act : Str} {r : Option ParsedRef} {x : Option Reference}
    (h : convertPotentialReference act r = .ok x) : ∃ y, OneListed act r y ∧ x = y.map (·.reference) := by
  unfold convertPotentialReference at h
  obtain ⟨y, hy, h⟩ := resBind_ok h
  cases h
  exact ⟨y, convertPotentialInText_one hy, rfl⟩

theorem convertStructural_named {act : Str} {r : ParsedStructRef} {s : StructuralReference} (h : convertStructural act r = .ok s) :
    StructNamed act r s := by
  have ordinal : ∀ {x i : Str}, (do .ok (natStr (← textToIntHun x)) : Res Str) = .ok i → ∃ j, OrdinalOf x j ∧ i = natStr j := by
    intro x i h
    obtain ⟨j, hj, h⟩ := resBind_ok h
    cases h
    exact ⟨j, (textToIntHun_ok x j).mp hj, rfl⟩
  cases r with
  | subtitleTitle raw quoted =>
    cases raw with
    | some raw => cases h; exact .words
    | none => cases quoted with
      | none => cases h
      | some q =>
        obtain ⟨t, ht, h⟩ := resBind_ok (show (convertQuote q >>= fun t => _) = _ from h)
        cases h
        exact .quoted (convertQuote_quoted ht)
  | beforeArticle id => cases h; exact .before
  | afterArticle id => cases h; exact .after
  | subtitleNumber id =>
    cases h
    exact .subtitle
  | chapterNumber id =>
    obtain ⟨i, hi, h⟩ := resBind_ok (show (StructKind.chapter.identifierFromString id.flatten >>= fun t => _) = _ from h)
    cases h
    exact .chapter (romanToArabic_iff.mp hi)
  | titleNumber b id =>
    obtain ⟨j, hj, h⟩ := resBind_ok (show (convertBookId b >>= fun t => _) = _ from h)
    obtain ⟨i, hi, h⟩ := resBind_ok h
    cases h
    cases b with
    | none => cases hj; exact .title (romanToArabic_iff.mp hi)
    | some b =>
      obtain ⟨k, hk, hj⟩ := resBind_ok (show (StructKind.book.identifierFromString b >>= fun t => _) = _ from hj)
      cases hj
      obtain ⟨j, hb, rfl⟩ := ordinal hk
      exact .titleOfBook hb (romanToArabic_iff.mp hi)
  | partNumber b id =>
    obtain ⟨j, hj, h⟩ := resBind_ok (show (convertBookId b >>= fun t => _) = _ from h)
    obtain ⟨i, hi, h⟩ := resBind_ok h
    cases h
    cases b with
    | none =>
      cases hj
      obtain ⟨j, hj, rfl⟩ := ordinal hi
      exact .part hj
    | some b =>
      obtain ⟨k, hk, hj⟩ := resBind_ok (show (StructKind.book.identifierFromString b >>= fun t => _) = _ from hj)
      cases hj
      obtain ⟨j, hb, rfl⟩ := ordinal hk
      obtain ⟨i, hp, rfl⟩ := ordinal hi
      exact .partOfBook hb hp

theorem convertExactDate_named {d : ParsedDate} {x : Date} (h : convertExactDate d = .ok x) : DateNamed d x := by
  unfold convertExactDate at h
  obtain ⟨y, hy, h⟩ := resBind_ok h
  obtain ⟨m, hm, h⟩ := resBind_ok h
  obtain ⟨n, hn, h⟩ := resBind_ok h
  rw [mkDate_ok] at h
  split at h
  · rename_i hr
    cases h
    exact ⟨hy, month_named.mp hm, hn, hr⟩
  · cases h

theorem enforcementTime_named {d : ParsedEnforcementDate} {t : EnforcementTime} (h : enforcementTime d = .ok t) : TimeNamed d t := by
  unfold enforcementTime at h
  cases he : d.exactDate with
  | some e =>
    rw [he] at h
    obtain ⟨x, hx, h⟩ := resBind_ok h
    cases h
    exact .date he (convertExactDate_named hx)
  | none =>
    cases ha : d.afterPublication with
    | some a =>
      rw [he, ha] at h
      obtain ⟨asNumber, asText⟩ := a
      cases asNumber with
      | some n =>
        obtain ⟨k, hk, h⟩ := resBind_ok (show (pyInt n >>= fun t => _) = _ from h)
        cases h
        exact .days he ha (.digits hk)
      | none => cases asText with
        | some t =>
          obtain ⟨k, hk, h⟩ := resBind_ok (show (textToIntHun t >>= fun t => _) = _ from h)
          cases h
          exact .days he ha (.words ((textToIntHun_ok _ _).mp hk))
        | none => cases h; exact .nextDay he ha
    | none =>
      cases hm : d.dayInMonth with
      | none => rw [he, ha, hm] at h; cases h
      | some m =>
        rw [he, ha, hm] at h
        have h : convertDayInMonth m = .ok t := h
        obtain ⟨months, hs, h⟩ : ∃ months : Int, (NumberNamed none m.month months ∨ m.month = none ∧ months = 1) ∧
            (match m.dayAsNumber, m.dayAsText with
            | some n, _ => do .ok (.dayInMonth (← pyInt n) months)
            | none, some t => do .ok (.dayInMonth (← textToIntHun t) months)
            | none, none => .error .valueError : Res EnforcementTime) = .ok t := by
          unfold convertDayInMonth at h
          cases hmm : m.month with
          | none => rw [hmm] at h; exact ⟨1, .inr ⟨rfl, rfl⟩, h⟩
          | some w =>
            rw [hmm] at h
            obtain ⟨k, hk, h⟩ := resBind_ok h
            exact ⟨k, .inl (.words ((textToIntHun_ok _ _).mp hk)), h⟩
        cases hn : m.dayAsNumber with
        | some n =>
          rw [hn] at h
          obtain ⟨k, hk, h⟩ := resBind_ok h
          cases h
          exact .dayInMonth he ha hm (by rw [hn]; exact .digits hk) hs
        | none => cases ht : m.dayAsText with
          | some w =>
            rw [hn, ht] at h
            obtain ⟨k, hk, h⟩ := resBind_ok h
            cases h
            exact .dayInMonth he ha hm (by rw [hn, ht]; exact .words ((textToIntHun_ok _ _).mp hk)) hs
          | none => rw [hn, ht] at h; cases h

theorem textAmendmentParts_replaced {x : OutgoingReference} : ∀ {parts : List (List QuoteTree × List QuoteTree)}
    {ds : List SemanticData}, textAmendmentParts x.reference parts = .ok ds → Both (TextReplaced x) parts ds
  | [], _, h => by cases h; exact .nil
  | p :: ps, _, h => by
    unfold textAmendmentParts at h
    obtain ⟨o, ho, h⟩ := resBind_ok h
    obtain ⟨r, hr, h⟩ := resBind_ok h
    obtain ⟨ds, hd, h⟩ := resBind_ok h
    cases h
    exact .cons ⟨o, r, convertQuote_quoted ho, convertQuote_quoted hr, rfl⟩ (textAmendmentParts_replaced hd)

theorem textAmendmentLoop_replaced {parts : List (List QuoteTree × List QuoteTree)} : ∀ {xs : List OutgoingReference}
    {ds : List SemanticData}, textAmendmentLoop parts xs = .ok ds →
    ∃ dss, Both (fun x ds => Both (TextReplaced x) parts ds) xs dss ∧ ds = dss.flatten
  | [], _, h => by cases h; exact ⟨[], .nil, rfl⟩
  | x :: xs, _, h => by
    unfold textAmendmentLoop at h
    obtain ⟨o, ho, h⟩ := resBind_ok h
    obtain ⟨r, hr, h⟩ := resBind_ok h
    cases h
    obtain ⟨dss, h1, rfl⟩ := textAmendmentLoop_replaced hr
    exact ⟨o :: dss, .cons (textAmendmentParts_replaced ho) h1, rfl⟩

theorem repealedTexts_repealed {x : OutgoingReference} : ∀ {texts : List (List QuoteTree)} {ds : List SemanticData},
    repealedTexts x.reference texts = .ok ds → Both (TextRepealed x) texts ds
  | [], _, h => by cases h; exact .nil
  | p :: ps, _, h => by
    unfold repealedTexts at h
    obtain ⟨o, ho, h⟩ := resBind_ok h
    obtain ⟨ds, hd, h⟩ := resBind_ok h
    cases h
    exact .cons ⟨o, convertQuote_quoted ho, rfl⟩ (repealedTexts_repealed hd)

theorem repealLoop_repealed {texts : List (List QuoteTree)} (hn : texts ≠ []) : ∀ {xs : List OutgoingReference}
    {ds : List SemanticData}, repealLoop texts xs = .ok ds →
    ∃ dss, Both (fun x ds => Both (TextRepealed x) texts ds) xs dss ∧ ds = dss.flatten
  | [], _, h => by cases h; exact ⟨[], .nil, rfl⟩
  | x :: xs, _, h => by
    unfold repealLoop at h
    rw [if_neg (by simpa using hn)] at h
    obtain ⟨o, ho, h⟩ := resBind_ok h
    obtain ⟨r, hr, h⟩ := resBind_ok h
    cases h
    obtain ⟨dss, h1, rfl⟩ := repealLoop_repealed hn hr
    exact ⟨o :: dss, .cons (repealedTexts_repealed ho) h1, rfl⟩

theorem repealLoop_whole : ∀ {xs : List OutgoingReference} {ds : List SemanticData}, repealLoop [] xs = .ok ds →
    ds = xs.map fun x => .repeal (.ref x.reference) none
  | [], _, h => by cases h; rfl
  | x :: xs, _, h => by
    unfold repealLoop at h
    obtain ⟨o, ho, h⟩ := resBind_ok h
    obtain ⟨r, hr, h⟩ := resBind_ok h
    cases h
    cases ho
    rw [repealLoop_whole hr]
    rfl

/-! ## Positions of block amendments -/

theorem completes_unique {context r c : Reference} (h : Completes context r c) : c = r.relativeTo context := by
  have key : ∀ {p s p' s' : List (Option Ident)}, p ++ s = p' ++ s' → (∀ x ∈ p, x = none) → (∀ x ∈ p', x = none) →
      (∀ x, s.head? = some x → x ≠ none) → (∀ x, s'.head? = some x → x ≠ none) → p = p' ∧ s = s' := by
    intro p
    induction p with
    | nil =>
      intro s p' s' he _ hp' hs _
      cases p' with
      | nil => exact ⟨rfl, he⟩
      | cons x p' =>
        rw [List.nil_append] at he
        subst he
        exact absurd (hp' x (List.mem_cons_self ..)) (hs x rfl)
    | cons y p ih =>
      intro s p' s' he hp hp' hs hs'
      cases p' with
      | nil =>
        rw [List.nil_append] at he
        subst he
        exact absurd (hp y (List.mem_cons_self ..)) (hs' y rfl)
      | cons x p' =>
        obtain ⟨rfl, he'⟩ := List.cons.inj he
        obtain ⟨rfl, rfl⟩ := ih he' (fun x hx => hp x (List.mem_cons_of_mem _ hx)) (fun x hx => hp' x (List.mem_cons_of_mem _ hx)) hs hs'
        exact ⟨rfl, rfl⟩
  obtain ⟨p, s, h1, h2, h3, h4⟩ := h
  obtain ⟨p', s', k1, k2, k3, k4⟩ := relativeTo_completes r context
  obtain ⟨rfl, rfl⟩ := key (h1.symm.trans k1) h2 k2 h3 k3
  exact Reference.components_inj (h4.trans k4.symm)

theorem ltGtLoop_prefix {p : List (Option Ident)} (hp : ∀ c ∈ p, ∀ t w, c ≠ some (.range t w)) (lt : Bool)
    (as bs : List (Option Ident)) : Reference.ltGtLoop lt (p ++ as) (p ++ bs) = Reference.ltGtLoop lt as bs := by
  induction p with
  | nil => rfl
  | cons c p ih =>
    rw [List.cons_append, List.cons_append, ltGtLoop_eq (isTuple_false.2 (hp c (List.mem_cons_self ..))),
      ih fun c hc => hp c (List.mem_cons_of_mem _ hc)]

theorem map_same {f : Option Ident → Option Ident} (hf : ∀ c, (∀ t w, c ≠ some (.range t w)) → f c = c) {l : List (Option Ident)}
    (hl : ∀ c ∈ l, ∀ t w, c ≠ some (.range t w)) : l.map f = l := by
  induction l with
  | nil => rfl
  | cons c l ih => rw [List.map_cons, hf c (hl c (List.mem_cons_self ..)), ih fun c hc => hl c (List.mem_cons_of_mem _ hc)]

theorem firstOf_single {c : Option Ident} (h : ∀ t w, c ≠ some (.range t w)) : Reference.firstOf c = c := by
  cases c with
  | none => rfl
  | some i => cases i with
    | one s => rfl
    | range t w => exact absurd rfl (h t w)

theorem lastOf_single {c : Option Ident} (h : ∀ t w, c ≠ some (.range t w)) : Reference.lastOf c = c := by
  cases c with
  | none => rfl
  | some i => cases i with
    | one s => rfl
    | range t w => exact absurd rfl (h t w)

theorem coversL_append : ∀ {p q s t : List (Option Ident)}, p.length = q.length → coversL p q → coversL s t →
    coversL (p ++ s) (q ++ t)
  | [], [], _, _, _, _, h => h
  | [], _ :: _, _, _, hl, _, _ => by cases hl
  | _ :: _, [], _, _, hl, _, _ => by cases hl
  | _ :: _, _ :: _, _, _, hl, h, h' => ⟨h.1, coversL_append (Nat.succ.inj hl) h.2 h'⟩

theorem coversL_between {x y r : Option Ident} {s : List (Option Ident)}
    (hr : ∀ c, ComponentCovers c x → ComponentCovers c y → ComponentCovers c r) : ∀ {p q : List (Option Ident)},
    coversL q (p ++ x :: s) → coversL q (p ++ y :: s) → coversL q (p ++ r :: s)
  | [], [], _, _ => trivial
  | [], _ :: _, h, h' => ⟨hr _ h.1 h'.1, h.2⟩
  | _ :: _, [], _, _ => trivial
  | _ :: _, _ :: _, h, h' => ⟨h.1, coversL_between hr h.2 h'.2⟩

theorem coversL_refl : ∀ {p : List (Option Ident)}, (∀ c ∈ p, ∀ t w, c ≠ some (.range t w)) → coversL p p
  | [], _ => trivial
  | c :: p, h => by
    refine ⟨?_, coversL_refl fun c hc => h c (List.mem_cons_of_mem _ hc)⟩
    intro i hi
    refine ⟨i, hi, ?_⟩
    cases i with
    | one s => rfl
    | range t w => exact absurd hi (h c (List.mem_cons_self ..) t w)

theorem less_ne {u v : Str} (h : identifierLess u v = .ok true) : u ≠ v := by
  rintro rfl
  exact Props.identifierLess_irrefl u h

theorem follows_covered {a b : Reference} (hact : a.act = b.act) (va : ValidRanges a) (vb : ValidRanges b) (h : Follows a b) :
    a.contains b.firstInRange = .ok false ∧ ∃ r, Reference.makeRange a.firstInRange b.lastInRange = .ok r ∧ SmallestCover r a b := by
  obtain ⟨p, x, y, s, u, v, ha, hb, hp, hs, hx, hy, huv⟩ := h
  have hs' : ∀ c ∈ s, ∀ t w, c ≠ some (.range t w) := fun c hc t w h => by rw [hs c hc] at h; cases h
  have hpne : p ≠ [] := by
    rintro rfl
    simp only [Reference.components, List.nil_append, List.cons.injEq] at ha hb
    have : some x = some y := by rw [← ha.1, ← hb.1, hact]
    cases this
    have hxu : x = .one u := by
      rcases hx with rfl | ⟨t, rfl⟩
      · rfl
      · cases h : a.act <;> rw [h] at ha <;> cases ha.1
    rcases hy with rfl | ⟨t, rfl⟩
    · cases hxu; exact less_ne huv rfl
    · cases hxu
  obtain ⟨x0, hx0, hx0u⟩ : ∃ x0, Reference.firstOf (some x) = some (.one x0) ∧ NotAfter x0 u := by
    rcases hx with rfl | ⟨t, rfl⟩
    · exact ⟨u, rfl, .inl rfl⟩
    · exact ⟨t, rfl, .inr (va _ (by rw [ha]; simp) t u rfl)⟩
  obtain ⟨y1, hy1, hvy1⟩ : ∃ y1, Reference.lastOf (some y) = some (.one y1) ∧ NotAfter v y1 := by
    rcases hy with rfl | ⟨t, rfl⟩
    · exact ⟨v, rfl, .inl rfl⟩
    · exact ⟨t, rfl, .inr (vb _ (by rw [hb]; simp) v t rfl)⟩
  have hxu : Reference.lastOf (some x) = some (.one u) := by rcases hx with rfl | ⟨t, rfl⟩ <;> rfl
  have hyv : Reference.firstOf (some y) = some (.one v) := by rcases hy with rfl | ⟨t, rfl⟩ <;> rfl
  have hx0v : identifierLess x0 v = .ok true := notAfter_ends hx0u huv
  have huy1 : NotAfter u y1 := Props.notAfter_trans (.inr huv) hvy1
  have hx0y1 : identifierLess x0 y1 = .ok true := by
    rcases hvy1 with rfl | h
    · exact hx0v
    · exact Props.identifierLess_trans _ _ _ hx0v h
  have fa : a.firstInRange.components = p ++ some (.one x0) :: s := by
    rw [firstInRange_components, ha, List.map_append, List.map_cons, hx0, map_same (fun c => firstOf_single) hp,
      map_same (fun c => firstOf_single) hs']
  have la : a.lastInRange.components = p ++ some (.one u) :: s := by
    rw [lastInRange_components, ha, List.map_append, List.map_cons, hxu, map_same (fun c => lastOf_single) hp,
      map_same (fun c => lastOf_single) hs']
  have fb : b.firstInRange.components = p ++ some (.one v) :: s := by
    rw [firstInRange_components, hb, List.map_append, List.map_cons, hyv, map_same (fun c => firstOf_single) hp,
      map_same (fun c => firstOf_single) hs']
  have lb : b.lastInRange.components = p ++ some (.one y1) :: s := by
    rw [lastInRange_components, hb, List.map_append, List.map_cons, hy1, map_same (fun c => lastOf_single) hp,
      map_same (fun c => lastOf_single) hs']
  have single : ∀ {r : Reference} {z : Str}, r.components = p ++ some (.one z) :: s → Single r := by
    intro r z hr c hc t w h
    rw [hr] at hc
    rcases List.mem_append.mp hc with hc | hc
    · exact hp c hc t w h
    · rcases List.mem_cons.mp hc with rfl | hc
      · cases h
      · exact hs' c hc t w h
  refine ⟨?_, ?_⟩
  · have e1 : b.firstInRange.firstInRange.components = p ++ some (.one v) :: s := by
      rw [firstInRange_components, fb, List.map_append, List.map_cons, map_same (fun c => firstOf_single) hp,
        map_same (fun c => firstOf_single) hs']
      rfl
    have e2 : b.firstInRange.lastInRange.components = p ++ some (.one v) :: s := by
      rw [lastInRange_components, fb, List.map_append, List.map_cons, map_same (fun c => lastOf_single) hp,
        map_same (fun c => lastOf_single) hs']
      rfl
    unfold Reference.contains
    have h1 : Reference.le a.firstInRange b.firstInRange.firstInRange = .ok true := by
      rw [Props.le_ge_mean _ _ |>.1]
      right
      show Reference.ltGtLoop true _ _ = _
      rw [fa, e1, ltGtLoop_prefix hp, ltGtLoop_one (less_ne hx0v)]
      exact hx0v
    have h2 : Reference.ge a.lastInRange b.firstInRange.lastInRange = .ok false := by
      unfold Reference.ge
      have hne : a.lastInRange ≠ b.firstInRange.lastInRange := by
        intro h
        have := congrArg Reference.components h
        rw [la, e2] at this
        have := List.append_cancel_left this
        cases this
        exact less_ne huv rfl
      rw [if_neg hne]
      show Reference.ltGtLoop false _ _ = _
      rw [ltGtLoop_converse, la, e2, ltGtLoop_prefix hp, ltGtLoop_one (less_ne huv).symm]
      exact Props.identifierLess_asymm _ _ huv
    have h3 : Reference.isParentOf a.lastInRange b.firstInRange.lastInRange = false := by
      unfold Reference.isParentOf
      rw [la, e2, Props.isParentLoop_append]
      unfold Reference.isParentLoop
      rw [if_neg (by simp [less_ne huv])]
      rfl
    rw [h1]
    show (Reference.ge a.lastInRange b.firstInRange.lastInRange >>= fun x => _) = _
    rw [h2]
    show Except.ok _ = _
    rw [h3]
  · obtain ⟨r, hr, hrc, -⟩ := Props.makeRange_last a.firstInRange b.lastInRange p s x0 y1 hpne fa lb (single fa) (single lb) hx0y1
    refine ⟨r, hr, ?_, ?_, ?_⟩
    · rw [covers_iff, hrc, ha]
      refine coversL_append rfl (coversL_refl hp) ⟨?_, coversL_refl hs'⟩
      intro i hi
      cases hi
      refine ⟨x, rfl, ?_⟩
      rcases hx with rfl | ⟨t, rfl⟩
      · cases hx0; exact ⟨.inl rfl, huy1⟩
      · cases hx0; exact ⟨.inl rfl, huy1⟩
    · rw [covers_iff, hrc, hb]
      refine coversL_append rfl (coversL_refl hp) ⟨?_, coversL_refl hs'⟩
      intro i hi
      cases hi
      refine ⟨y, rfl, ?_⟩
      rcases hy with rfl | ⟨t, rfl⟩
      · cases hy1; exact ⟨.inr hx0v, .inl rfl⟩
      · cases hy1; exact ⟨.inr hx0v, .inl rfl⟩
    · intro q h1 h2
      rw [covers_iff] at h1 h2 ⊢
      rw [ha] at h1
      rw [hb] at h2
      rw [hrc]
      refine coversL_between ?_ h1 h2
      intro c c1 c2 i hi
      obtain ⟨j, hj, hij⟩ := c1 i hi
      obtain ⟨k, hk, hik⟩ := c2 i hi
      cases hj
      cases hk
      refine ⟨_, rfl, ?_⟩
      cases i with
      | one z =>
        exfalso
        simp only [IdentCovers] at hij hik
        subst hij
        subst hik
        rcases hx with h | ⟨t, h⟩ <;> cases h
        rcases hy with h | ⟨t, h⟩ <;> cases h
        exact less_ne huv rfl
      | range z w =>
        refine ⟨?_, ?_⟩
        · rcases hx with rfl | ⟨t, rfl⟩
          · cases hx0; exact hij.1
          · cases hx0; exact hij.1
        · rcases hy with rfl | ⟨t, rfl⟩
          · cases hy1; exact hik.2
          · cases hy1; exact hik.2

theorem completedBy_act (a i : Reference) : a.act = (completedBy a i).act := by
  unfold completedBy
  simp [Reference.relativeTo]

theorem amendmentAndInsertion_follows {a i : Reference} (va : ValidRanges a) (vc : ValidRanges (completedBy a i))
    (h : Follows a (completedBy a i)) :
    ∃ p, amendmentAndInsertion a i = .ok p ∧ SmallestCover p a (completedBy a i) := by
  obtain ⟨h1, r, h2, h3⟩ := follows_covered (completedBy_act a i) va vc h
  refine ⟨r, ?_, h3⟩
  unfold amendmentAndInsertion
  simp only
  rw [h1]
  exact h2

theorem amendmentAndInsertion_covered {a i : Reference} (gap : GapFree a) (rl : RangeLast a) (va : ValidRanges a)
    (vc : ValidRanges (completedBy a i)) (h : Covers a (completedBy a i)) :
    amendmentAndInsertion a i = .ok a ∧ SmallestCover a a (completedBy a i) := by
  have hc := completedBy_act a i
  generalize hb : completedBy a i = b at *
  have refl : Covers a a := (Props.contains_iff_covers a a gap rl (.inl rfl) va).mp (Props.contains_self a)
  have hsingle : Single b.firstInRange := by
    intro c hc t w h
    rw [firstInRange_components] at hc
    obtain ⟨d, -, rfl⟩ := List.mem_map.mp hc
    cases d with
    | none => cases h
    | some i => cases i <;> cases h
  have comp : ∀ x y : Option Ident, y ∈ b.components → ComponentCovers x y → ComponentCovers x (Reference.firstOf y) := by
    intro x y hy h i hi
    obtain ⟨j, rfl, hij⟩ := h i hi
    cases j with
    | one z => exact ⟨_, rfl, hij⟩
    | range z w =>
      refine ⟨.one z, rfl, ?_⟩
      cases i with
      | one x => cases hij
      | range t u =>
        have := vc _ hy z w rfl
        exact ⟨hij.1, Props.notAfter_trans (.inr this) hij.2⟩
  have hcov : Covers a b.firstInRange :=
    ⟨h.1, comp _ _ (by simp [Reference.components]) h.2.1, comp _ _ (by simp [Reference.components]) h.2.2.1,
      comp _ _ (by simp [Reference.components]) h.2.2.2.1, comp _ _ (by simp [Reference.components]) h.2.2.2.2⟩
  refine ⟨?_, refl, h, fun q hq _ => hq⟩
  unfold amendmentAndInsertion
  rw [hb]
  have := (Props.contains_iff_covers a b.firstInRange gap rl (.inl hc) (fun c hc u v h => absurd h (hsingle c hc u v))).mpr hcov
  simp only
  rw [this]
  rfl

/-! ## Whole trees -/

/-- What is in the results, by kind. -/
def toldOf (rs : List ConversionResult) : Told := ((analysisOf rs).references, (analysisOf rs).abbreviations, (analysisOf rs).semantic)

theorem toldOf_append (xs ys : List ConversionResult) : toldOf (xs ++ ys) =
    ((toldOf xs).1 ++ (toldOf ys).1, (toldOf xs).2.1 ++ (toldOf ys).2.1, (toldOf xs).2.2 ++ (toldOf ys).2.2) := by
  simp [toldOf, analysisOf]

theorem toldOf_references (xs : List OutgoingReference) : toldOf (xs.map .reference) = (xs, [], []) := by
  simp [toldOf, analysisOf, List.filterMap_map, Function.comp_def]

theorem toldOf_abbreviations (xs : List ActIdAbbreviation) : toldOf (xs.map .abbreviation) = ([], xs, []) := by
  simp [toldOf, analysisOf, List.filterMap_map, Function.comp_def]

theorem toldOf_semantic (xs : List SemanticData) : toldOf (xs.map .semantic) = ([], [], xs) := by
  simp [toldOf, analysisOf, List.filterMap_map, Function.comp_def]

theorem toldOf_both (xs : List OutgoingReference) (ds : List SemanticData) :
    toldOf (ds.map .semantic ++ xs.map .reference) = (xs, [], ds) ∧
    toldOf (xs.map .reference ++ ds.map .semantic) = (xs, [], ds) := by
  constructor <;> simp [toldOf_append, toldOf_references, toldOf_semantic]

theorem oneListed_act {act : Str} {r : Option ParsedRef} {y : OutgoingReference} (h : OneListed act r (some y)) :
    y.reference.act = some act := by
  rcases h with ⟨-, h⟩ | ⟨p, xs, rfl, h1, ⟨z, rfl, h2⟩ | ⟨-, h2⟩⟩
  · cases h
  · cases h2
    exact convertSingle_act h1 y (List.mem_cons_self ..)
  · cases h2

theorem map_some {α β : Type} {f : α → β} {o : Option α} {b : β} (h : some b = o.map f) : ∃ a, o = some a ∧ b = f a := by
  cases o with
  | none => cases h
  | some a => cases h; exact ⟨a, rfl, rfl⟩

theorem map_none {α β : Type} {f : α → β} {o : Option α} (h : none = o.map f) : o = none := by
  cases o with
  | none => rfl
  | some a => cases h

theorem enforcementDates_ok {d : ParsedEnforcementDate} {ds : List SemanticData} (h : enforcementDates d = .ok ds) :
    ∃ time repeal, TimeNamed d time ∧
      (d.inlineRepeal = none ∧ repeal = none ∨ ∃ p x, d.inlineRepeal = some p ∧ DateNamed p x ∧ repeal = some x) ∧
      (d.references = [] ∧ ds = [.enforcementDate none time repeal] ∨
       d.references ≠ [] ∧ ∃ xs, convertMultiple {} d.references = .ok xs ∧
        ds = xs.map fun x => .enforcementDate (some x.reference) time repeal) := by
  unfold enforcementDates at h
  obtain ⟨time, ht, h⟩ := resBind_ok h
  obtain ⟨repeal, hr, h⟩ : ∃ repeal,
      (d.inlineRepeal = none ∧ repeal = none ∨ ∃ p x, d.inlineRepeal = some p ∧ DateNamed p x ∧ repeal = some x) ∧
      (if d.references.isEmpty then .ok [.enforcementDate none time repeal]
      else do
        let rs ← convertMultiple {} d.references
        .ok (rs.map fun r => .enforcementDate (some r.reference) time repeal) : Res (List SemanticData)) = .ok ds := by
    cases hi : d.inlineRepeal with
    | none => rw [hi] at h; exact ⟨none, .inl ⟨rfl, rfl⟩, h⟩
    | some p =>
      rw [hi] at h
      obtain ⟨x, hx, h⟩ := resBind_ok h
      exact ⟨some x, .inr ⟨p, x, rfl, convertExactDate_named hx, rfl⟩, h⟩
  refine ⟨time, repeal, enforcementTime_named ht, hr, ?_⟩
  cases hd : d.references with
  | nil => rw [hd] at h; cases h; exact .inl ⟨rfl, rfl⟩
  | cons r rs =>
    rw [hd] at h
    obtain ⟨xs, hx, h⟩ := resBind_ok (show (convertMultiple {} (r :: rs) >>= fun t => _) = _ from h)
    cases h
    exact .inr ⟨by simp, xs, hx, rfl⟩

theorem convertNode_tells {n : GrammarNode} {rs : List ConversionResult} (h : convertNode n = .ok rs) : Tells n (toldOf rs) := by
  cases n with
  | compoundReference act references =>
    obtain ⟨xs, hx, h⟩ := resBind_ok (show (compoundReferences act references >>= fun t => _) = _ from h)
    cases h
    rw [toldOf_references]
    cases act with
    | none =>
      obtain ⟨xss, h1, rfl⟩ := convertEach_listed (show convertEach none references = .ok xs from hx)
      exact .compound h1
    | some a =>
      obtain ⟨id, hi, hx⟩ := resBind_ok (show (a.id >>= fun t => _) = _ from hx)
      obtain ⟨first, hf, hx⟩ := resBind_ok hx
      obtain ⟨ys, hy, hx⟩ := resBind_ok hx
      cases hx
      obtain ⟨xss, h1, rfl⟩ := convertEach_listed hy
      exact .compoundOfAct (outgoing_mention hf) (actName_iff.mp hi) h1
  | actReference a =>
    obtain ⟨xs, hx, h⟩ := resBind_ok (show (actAbbreviation a >>= fun t => _) = _ from h)
    cases h
    rw [toldOf_abbreviations]
    unfold actAbbreviation at hx
    cases hf : a.fromNowOn with
    | none => rw [hf] at hx; cases hx; exact .act hf
    | some s =>
      rw [hf] at hx
      obtain ⟨id, hi, hx⟩ := resBind_ok hx
      cases hx
      exact .defined hf (actName_iff.mp hi)
  | blockAmendment a am ins =>
    obtain ⟨xs, hx, h⟩ := resBind_ok (show (blockAmendmentReferences a am ins >>= fun t => _) = _ from h)
    obtain ⟨ds, hd, h⟩ := resBind_ok h
    cases h
    rw [(toldOf_both _ _).2]
    unfold blockAmendmentReferences at hx
    obtain ⟨id, hi, hx⟩ := resBind_ok hx
    obtain ⟨first, hf, hx⟩ := resBind_ok hx
    obtain ⟨y, hy, hx⟩ := resBind_ok hx
    obtain ⟨z, hz, hx⟩ := resBind_ok hx
    have hf := outgoing_mention hf
    have hy := convertPotentialInText_one hy
    have hz := convertPotentialInText_one hz
    unfold blockAmendments at hd
    obtain ⟨id', hi', hd⟩ := resBind_ok hd
    rw [hi] at hi'
    cases hi'
    have hi := actName_iff.mp hi
    obtain ⟨y', hy', hd⟩ := resBind_ok hd
    obtain ⟨y'', hy2, rfl⟩ := convertPotentialReference_one hy'
    cases oneListed_unique hy hy2
    obtain ⟨z', hz', hd⟩ := resBind_ok hd
    obtain ⟨z'', hz2, rfl⟩ := convertPotentialReference_one hz'
    cases oneListed_unique hz hz2
    cases y with
    | none => cases z with
      | none => cases hx; cases hd; exact .neither hf hi hy hz
      | some z => cases hx; cases hd; exact .inserted hf hi hy hz
    | some y => cases z with
      | none => cases hx; cases hd; exact .amended hf hi hy hz
      | some z =>
        cases hx
        obtain ⟨p, hp, hd⟩ := resBind_ok (show (amendmentAndInsertion y.reference z.reference >>= fun t => _) = _ from hd)
        cases hd
        refine .both hf hi hy hz (relativeTo_completes _ _) fun va vc hf => ?_
        obtain ⟨p', hp', hc⟩ := amendmentAndInsertion_follows va vc hf
        rw [hp] at hp'
        cases hp'
        exact hc
  | blockAmendmentWithSubtitle a st am ins =>
    obtain ⟨ds, hd, h⟩ := resBind_ok (show (blockAmendmentsWithSubtitle a st am ins >>= fun t => _) = _ from h)
    cases h
    rw [toldOf_semantic]
    unfold blockAmendmentsWithSubtitle at hd
    obtain ⟨id, hi, hd⟩ := resBind_ok hd
    have hi := actName_iff.mp hi
    obtain ⟨p, hp, hd⟩ : ∃ p, ((∃ s, st = some s ∧ StructNamed id s p) ∨ st = none ∧ p = { act := some id }) ∧ (do
        let am ← convertPotentialReference id am
        let ins ← convertPotentialReference id ins
        match am, ins with
        | some _, some _ => .error .valueError
        | some a, none => do .ok [← subtitleAmendment p (some a) false]
        | none, ins => do .ok [← subtitleAmendment p ins true] : Res (List SemanticData)) = .ok ds := by
      cases st with
      | none => exact ⟨_, .inr ⟨rfl, rfl⟩, hd⟩
      | some s =>
        obtain ⟨p, hp, hd⟩ := resBind_ok (show (convertStructural id s >>= fun t => _) = _ from hd)
        exact ⟨p, .inl ⟨s, rfl, convertStructural_named hp⟩, hd⟩
    obtain ⟨y', hy', hd⟩ := resBind_ok hd
    obtain ⟨y, hy, rfl⟩ := convertPotentialReference_one hy'
    obtain ⟨z', hz', hd⟩ := resBind_ok hd
    obtain ⟨z, hz, rfl⟩ := convertPotentialReference_one hz'
    obtain ⟨w, pure, hw, hd⟩ : ∃ w pure, (OneListed id am (some w) ∧ OneListed id ins none ∧ pure = false ∨
        OneListed id am none ∧ OneListed id ins (some w) ∧ pure = true) ∧
        (do .ok [← subtitleAmendment p (some w.reference) pure] : Res (List SemanticData)) = .ok ds := by
      cases y with
      | none => cases z with
        | none => cases hd
        | some z => exact ⟨z, true, .inr ⟨hy, hz, rfl⟩, hd⟩
      | some y => cases z with
        | none => exact ⟨y, false, .inl ⟨hy, hz, rfl⟩, hd⟩
        | some z => cases hd
    obtain ⟨d, hd', hd⟩ := resBind_ok hd
    cases hd
    have hact : w.reference.act = some id := by
      rcases hw with ⟨h, -⟩ | ⟨-, h, -⟩ <;> exact oneListed_act h
    unfold subtitleAmendment at hd'
    simp only [hact] at hd'
    cases har : w.reference.article with
    | none => rw [har] at hd'; cases hd'; exact .onlySubtitle hi hw har hp
    | some i =>
      rw [har] at hd'
      cases i with
      | one s => cases hd'; exact .withSubtitle hi hw (.inl har)
      | range s t => cases hd'; exact .withSubtitle hi hw (.inr ⟨t, har⟩)
  | blockAmendmentStructural a am ins =>
    obtain ⟨ds, hd, h⟩ := resBind_ok (show (blockAmendmentsStructural a am ins >>= fun t => _) = _ from h)
    cases h
    rw [toldOf_semantic]
    obtain ⟨id, hi, hd⟩ := resBind_ok (show (a.id >>= fun t => _) = _ from hd)
    have hi := actName_iff.mp hi
    cases am with
    | none => cases ins with
      | none => cases hd
      | some s =>
        obtain ⟨p, hp, hd⟩ := resBind_ok (show (convertStructural id s >>= fun t => _) = _ from hd)
        cases hd
        exact .structuralInserted hi (convertStructural_named hp)
    | some s => cases ins with
      | some _ => cases hd
      | none =>
        obtain ⟨p, hp, hd⟩ := resBind_ok (show (convertStructural id s >>= fun t => _) = _ from hd)
        cases hd
        exact .structuralAmended hi (convertStructural_named hp)
  | enforcementDate d =>
    obtain ⟨ds, hd, h⟩ := resBind_ok (show (enforcementDates d >>= fun t => _) = _ from h)
    obtain ⟨xs, hx, h⟩ := resBind_ok h
    cases h
    rw [(toldOf_both _ _).1]
    obtain ⟨ys, hy, hx⟩ := resBind_ok (show (convertMultiple {} d.references >>= fun t => _) = _ from hx)
    obtain ⟨es, he, hx⟩ := resBind_ok hx
    cases hx
    obtain ⟨time, repeal, ht, hr, ⟨hn, rfl⟩ | ⟨hn, ys', hy', rfl⟩⟩ := enforcementDates_ok hd
    · rw [hn] at hy
      cases hy
      exact .allInForce hn ht hr (convertMultiple_listed he)
    · rw [hy] at hy'
      cases hy'
      exact .inForce hn ht hr (convertMultiple_listed hy) (convertMultiple_listed he)
  | textAmendment a references parts =>
    obtain ⟨ds, hd, h⟩ := resBind_ok (show (textAmendments a references parts >>= fun t => _) = _ from h)
    obtain ⟨xs, hx, h⟩ := resBind_ok h
    cases h
    rw [(toldOf_both _ _).1]
    obtain ⟨id, hi, hx⟩ := resBind_ok (show (a.id >>= fun t => _) = _ from hx)
    obtain ⟨first, hf, hx⟩ := resBind_ok hx
    obtain ⟨ys, hy, hx⟩ := resBind_ok hx
    cases hx
    obtain ⟨id', hi', hd⟩ := resBind_ok (show (a.id >>= fun t => _) = _ from hd)
    rw [hi] at hi'
    cases hi'
    obtain ⟨ys', hy', hd⟩ := resBind_ok hd
    rw [hy] at hy'
    cases hy'
    obtain ⟨dss, h1, rfl⟩ := textAmendmentLoop_replaced hd
    exact .replaced (outgoing_mention hf) (actName_iff.mp hi) (convertMultiple_listed hy) h1
  | articleTitleAmendment a article o r =>
    obtain ⟨ds, hd, h⟩ := resBind_ok (show (titleAmendments a article o r >>= fun t => _) = _ from h)
    obtain ⟨xs, hx, h⟩ := resBind_ok h
    cases h
    rw [(toldOf_both _ _).1]
    obtain ⟨id, hi, hx⟩ := resBind_ok (show (a.id >>= fun t => _) = _ from hx)
    obtain ⟨first, hf, hx⟩ := resBind_ok hx
    cases hx
    obtain ⟨id', hi', hd⟩ := resBind_ok (show (a.id >>= fun t => _) = _ from hd)
    rw [hi] at hi'
    cases hi'
    obtain ⟨o', ho, hd⟩ := resBind_ok hd
    obtain ⟨r', hr, hd⟩ := resBind_ok hd
    cases hd
    exact .title (outgoing_mention hf) (actName_iff.mp hi) (convertQuote_quoted ho) (convertQuote_quoted hr)
  | simpleRepeal a references texts =>
    obtain ⟨ds, hd, h⟩ := resBind_ok (show (repeals a references texts >>= fun t => _) = _ from h)
    obtain ⟨xs, hx, h⟩ := resBind_ok h
    cases h
    rw [(toldOf_both _ _).1]
    obtain ⟨id, hi, hx⟩ := resBind_ok (show (a.id >>= fun t => _) = _ from hx)
    obtain ⟨first, hf, hx⟩ := resBind_ok hx
    obtain ⟨ys, hy, hx⟩ := resBind_ok hx
    cases hx
    obtain ⟨id', hi', hd⟩ := resBind_ok (show (a.id >>= fun t => _) = _ from hd)
    rw [hi] at hi'
    cases hi'
    obtain ⟨ys', hy', hd⟩ := resBind_ok hd
    rw [hy] at hy'
    cases hy'
    by_cases hn : texts = []
    · subst hn
      rw [repealLoop_whole hd]
      exact .repealed (outgoing_mention hf) (actName_iff.mp hi) (convertMultiple_listed hy)
    · obtain ⟨dss, h1, rfl⟩ := repealLoop_repealed hn hd
      exact .textsRepealed (outgoing_mention hf) (actName_iff.mp hi) (convertMultiple_listed hy) hn h1
  | structuralRepeal a s =>
    obtain ⟨ds, hd, h⟩ := resBind_ok (show (structuralRepeals a s >>= fun t => _) = _ from h)
    obtain ⟨x, hx, h⟩ := resBind_ok h
    cases h
    rw [show ([ConversionResult.reference x]) = [x].map .reference from rfl, (toldOf_both _ _).1]
    obtain ⟨id, hi, hd⟩ := resBind_ok (show (a.id >>= fun t => _) = _ from hd)
    obtain ⟨p, hp, hd⟩ := resBind_ok hd
    cases hd
    exact .structureRepealed (outgoing_mention hx) (actName_iff.mp hi) (convertStructural_named hp)
  | other => cases h; exact .other

/-- All that several nodes tell. -/
def allTold (ts : List Told) : Told := (ts.flatMap (·.1), ts.flatMap (·.2.1), ts.flatMap (·.2.2))

theorem allTold_append (ts us : List Told) : allTold (ts ++ us) = ((allTold ts).1 ++ (allTold us).1,
    (allTold ts).2.1 ++ (allTold us).2.1, (allTold ts).2.2 ++ (allTold us).2.2) := by
  simp [allTold]

mutual
theorem convertTree_tells : ∀ (t : ParseTree) {rs : List ConversionResult}, convertTree t = .ok rs →
    ∃ ts, Both Tells (treeNodes t) ts ∧ toldOf rs = allTold ts
  | .node n cs, _, h => by
    unfold convertTree at h
    obtain ⟨xs, hx, h⟩ := resBind_ok h
    obtain ⟨ys, hy, h⟩ := resBind_ok h
    cases h
    obtain ⟨ts, h1, h2⟩ := convertTrees_tells cs hx
    refine ⟨ts ++ [toldOf ys], ?_, ?_⟩
    · unfold treeNodes
      exact h1.append (.cons (convertNode_tells hy) .nil)
    · rw [toldOf_append, allTold_append, h2]
      simp [allTold]
theorem convertTrees_tells : ∀ (cs : List ParseTree) {rs : List ConversionResult}, convertTrees cs = .ok rs →
    ∃ ts, Both Tells (treesNodes cs) ts ∧ toldOf rs = allTold ts
  | [], _, h => by
    unfold convertTrees at h
    cases h
    exact ⟨[], .nil, rfl⟩
  | c :: cs, _, h => by
    unfold convertTrees at h
    obtain ⟨xs, hx, h⟩ := resBind_ok h
    obtain ⟨ys, hy, h⟩ := resBind_ok h
    cases h
    obtain ⟨ts, h1, h2⟩ := convertTree_tells c hx
    obtain ⟨us, k1, k2⟩ := convertTrees_tells cs hy
    refine ⟨ts ++ us, ?_, ?_⟩
    · unfold treesNodes
      exact h1.append k1
    · rw [toldOf_append, allTold_append, h2, k2]
end

theorem analyzer_ok {parse : Str → Option ParseTree} {s : Str} {r : Analysis} (h : grammaticalAnalyzer parse s = .ok r) :
    ∃ t ts, parse s = some t ∧ Both Tells (treeNodes t) ts ∧ r.references = ts.flatMap (·.1) ∧
      r.abbreviations = ts.flatMap (·.2.1) ∧ r.semantic = ts.flatMap (·.2.2) := by
  unfold grammaticalAnalyzer at h
  cases hp : parse s with
  | none => rw [hp] at h; cases h
  | some t =>
    rw [hp] at h
    simp only at h
    cases hc : convertTree t with
    | error e => rw [hc] at h; cases h
    | ok rs =>
      rw [hc] at h
      cases h
      obtain ⟨ts, h1, h2⟩ := convertTree_tells t hc
      exact ⟨t, ts, rfl, h1, congrArg (·.1) h2, congrArg (·.2.1) h2, congrArg (·.2.2) h2⟩

end Verif
