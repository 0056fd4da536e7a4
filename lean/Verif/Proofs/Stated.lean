import Verif.Proofs.Blocks

/-! # What is reported of changes (C73) -/

namespace Verif.ActGrammar

open Verif.Spec Verif.Peg

/-! ## Quotations -/

theorem stripped_unique {t s s' : Str} (h : Stripped t s) (h' : Stripped t s') : s = s' := by
  obtain ⟨l, r, e, hl, hr, hf, hg⟩ := h
  obtain ⟨l', r', e', hl', hr', hf', hg'⟩ := h'
  have drop : ∀ {l s : Str} (r : Str), (∀ c ∈ l, isSpace c = true) → (∀ c, s.head? = some c → isSpace c = false) → s ≠ [] →
      (l ++ (s ++ r)).dropWhile isSpace = s ++ r := by
    intro l s r hl hs hne
    rw [List.dropWhile_append_of_pos hl]
    obtain ⟨c, t, rfl⟩ := List.exists_cons_of_ne_nil hne
    exact dropWhile_cons_of (hs c rfl)
  have all : ∀ {l r : Str}, (∀ c ∈ l, isSpace c = true) → (∀ c ∈ r, isSpace c = true) → ∀ {l' s' r' : Str}, l ++ r = l' ++ s' ++ r' →
      (∀ c, s'.head? = some c → isSpace c = false) → s' = [] := by
    intro l r hl hr l' s' r' e hs
    cases s' with
    | nil => rfl
    | cons c u =>
      have hm : c ∈ l ++ r := by rw [e]; simp
      have h1 := hs c rfl
      rcases List.mem_append.mp hm with h | h
      · rw [hl c h] at h1; cases h1
      · rw [hr c h] at h1; cases h1
  by_cases h1 : s = []
  · subst h1
    exact (all hl hr (l' := l') (r' := r') (by rw [← e', e]; simp) hf').symm
  · by_cases h2 : s' = []
    · subst h2
      exact absurd (all hl' hr' (l' := l) (r' := r) (by rw [← e, e']; simp) hf) h1
    · have e1 : s ++ r = s' ++ r' := by
        rw [← drop r hl hf h1, ← drop r' hl' hf' h2, ← List.append_assoc, ← List.append_assoc, ← e, ← e']
      have e2 := congrArg List.reverse e1
      rw [List.reverse_append, List.reverse_append] at e2
      have rev : ∀ {r s : Str}, (∀ c ∈ r, isSpace c = true) → (∀ c, s.getLast? = some c → isSpace c = false) → s ≠ [] →
          (r.reverse ++ s.reverse).dropWhile isSpace = s.reverse := by
        intro r s hr hs hne
        have := drop (l := r.reverse) (s := s.reverse) [] (by simpa using hr) (by simpa using hs) (by simpa using hne)
        simpa using this
      have e3 := congrArg (List.dropWhile isSpace) e2
      rw [rev hr hg h1, rev hr' hg' h2] at e3
      simpa using congrArg List.reverse e3

theorem quoted_unique {q : List QuoteTree} {s s' : Str} (h : Quoted q s) (h' : Quoted q s') : s = s' := by
  obtain ⟨i, e, h⟩ := h
  obtain ⟨i', e', h'⟩ := h'
  rw [e] at e'
  have : i = i' := by
    have := (List.cons.inj e').2
    exact List.append_cancel_right this
  subst this
  exact stripped_unique h h'

theorem replaced_all {x : OutgoingReference} {qs : List (List QuoteTree × List QuoteTree)} {l : List (Str × Str)} {ds : List SemanticData}
    (h : Both (TextReplaced x) qs ds) (hq : Both (fun q x => Quoted q.1 x.1 ∧ Quoted q.2 x.2) qs l) :
    ds = l.map fun p => .textAmendment x.reference p.1 p.2 := by
  induction h generalizing l with
  | nil => cases hq; rfl
  | cons hd _ ih =>
    cases hq with
    | cons hq hqs =>
      obtain ⟨o, r, h1, h2, rfl⟩ := hd
      rw [ih hqs, quoted_unique h1 hq.1, quoted_unique h2 hq.2]
      rfl

theorem repealed_all {x : OutgoingReference} {qs : List (List QuoteTree)} {l : List Str} {ds : List SemanticData}
    (h : Both (TextRepealed x) qs ds) (hq : Both Quoted qs l) : ds = l.map fun t => .repeal (.ref x.reference) (some t) := by
  induction h generalizing l with
  | nil => cases hq; rfl
  | cons hd _ ih =>
    cases hq with
    | cons hq hqs =>
      obtain ⟨o, h1, rfl⟩ := hd
      rw [ih hqs, quoted_unique h1 hq]
      rfl

theorem flatten_each {α β : Type} {R : α → List β → Prop} {f : α → List β} (hR : ∀ x ds, R x ds → ds = f x) {xs : List α} {dss : List (List β)}
    (h : Both R xs dss) : dss.flatten = xs.flatMap f := by
  induction h with
  | nil => rfl
  | cons h _ ih => rw [List.flatten_cons, List.flatMap_cons, ih, hR _ _ h]

/-! ## The analysis -/

theorem tells_act {a : ParsedActRef} {t : Told} (h : Tells (.actReference a) t) : t.1 = [] ∧ Defined (some a, []) t.2.1 ∧ t.2.2 = [] := by
  cases h with
  | defined h hi => exact ⟨rfl, .abbreviation h hi, rfl⟩
  | act h => exact ⟨rfl, .nothing (by rintro _ ⟨⟩; exact h), rfl⟩

theorem act_analysis {s : Str} {a : ParsedActRef} {n : GrammarNode} {r : Analysis} (hp : parse s = some (withAct a n))
    (h : grammaticalAnalyzer parse s = .ok r) : ∃ ab t, Defined (some a, []) ab ∧ Tells n t ∧ r = ⟨t.1, t.2.2, ab ++ t.2.1⟩ := by
  obtain ⟨t, ts, h1, h2, h3, h4, h5⟩ := analyzer_ok h
  rw [hp] at h1
  cases h1
  replace h2 : Both Tells [.actReference a, n] ts := h2
  cases h2 with
  | @cons _ t1 _ _ ha h2 =>
    cases h2 with
    | @cons _ t2 _ _ hn h6 =>
      cases h6
      obtain ⟨e1, e2, e3⟩ := tells_act ha
      refine ⟨_, t2, e2, hn, ?_⟩
      cases r
      simp only [List.flatMap_cons, List.flatMap_nil, List.append_nil, e1, e3, List.nil_append] at h3 h4 h5
      rw [h3, h4, h5]

theorem one_some {id : Str} {r : ParsedRef} {x : Option OutgoingReference} (h : OneListed id (some r) x) :
    (∃ y, x = some y ∧ Listed (some id) r [y]) ∨ ∃ xs, x = none ∧ Listed (some id) r xs ∧ xs.length ≠ 1 := by
  rcases h with ⟨h, _⟩ | ⟨p, xs, h, hl, ⟨y, rfl, rfl⟩ | ⟨hn, rfl⟩⟩
  · cases h
  · cases h
    exact .inl ⟨y, rfl, hl⟩
  · cases h
    refine .inr ⟨xs, rfl, hl, fun h1 => ?_⟩
    obtain ⟨y, rfl⟩ := List.length_eq_one_iff.mp h1
    exact hn y rfl

theorem one_none {id : Str} {x : Option OutgoingReference} (h : OneListed id none x) : x = none := by
  rcases h with ⟨_, h⟩ | ⟨p, xs, h, _⟩
  · exact h
  · cases h

theorem act_name_unique {a : ParsedActRef} {x y : Str} (h : ActName a x) (h' : ActName a y) : x = y := by
  cases h with
  | number h =>
    cases h' with
    | number h' => rw [h] at h'; cases h'; rfl
    | abbreviation h' _ => rw [h] at h'; cases h'
  | abbreviation h hs =>
    cases h' with
    | number h' => rw [h] at h'; cases h'
    | abbreviation h' hs' => rw [hs] at hs'; cases hs'; rfl

theorem repeal_both {p : Option ParsedDate} {x : Option Date}
    (h : p = none ∧ x = none ∨ ∃ q y, p = some q ∧ DateNamed q y ∧ x = some y) : Both DateNamed p.toList x.toList := by
  rcases h with ⟨rfl, rfl⟩ | ⟨q, y, rfl, h, rfl⟩
  · exact .nil
  · exact .cons h .nil

theorem states_reported {s : Str} {c : Change} {r : Analysis} (h : States s c) (ha : grammaticalAnalyzer parse s = .ok r) : Reports Listed c r := by
  cases h with
  | texts ho hp hr hb hl he =>
    obtain ⟨qs, h1, h2⟩ := texts_tree ho hp hr hb hl he
    obtain ⟨ab, t, hd, ht, rfl⟩ := act_analysis h1 ha
    cases ht with
    | replaced hm hi h hds =>
      rw [flatten_each (f := _) (fun x ds h => replaced_all h h2) hds]
      simp only [List.append_nil]
      exact .texts hm hi hd h
  | title ho hp hx hg hc hn hb hq hz he =>
    obtain ⟨ps, q1, q2, h1, h2, h3, h4⟩ := title_tree ho hp hx hg hc hn hb hq hz he
    obtain ⟨ab, t, hd, ht, rfl⟩ := act_analysis h1 ha
    cases ht with
    | title hm hi ho hr =>
      rw [quoted_unique ho h3, quoted_unique hr h4]
      simp only [List.append_nil, h2]
      exact .title hm hi hd
  | repeal ho hb hp hr ht =>
    obtain ⟨qs, h1, h2⟩ := repeal_tree ho hb hp hr ht
    obtain ⟨ab, t, hd, ht, rfl⟩ := act_analysis h1 ha
    cases ht with
    | repealed hm hi h =>
      cases h2
      simp only [List.append_nil]
      exact .repeal hm hi hd h
    | textsRepealed hm hi h hne hds =>
      rw [flatten_each (f := _) (fun x ds h => repealed_all h h2) hds]
      simp only [List.append_nil]
      refine .repealTexts hm hi hd h ?_
      rintro rfl
      cases h2
      exact hne rfl
  | inForce ho hx hr ht hi =>
    have h1 := inForce_tree ho hx hr ht hi
    obtain ⟨t, ts, h2, h3, h4, h5, h6⟩ := analyzer_ok ha
    rw [h1] at h2
    cases h2
    replace h3 : Both Tells [.enforcementDate _] ts := h3
    cases h3 with
    | cons h3 h7 =>
      cases h7
      cases r
      cases h3 with
      | allInForce he ht hr hx =>
        simp only [List.flatMap_cons, List.flatMap_nil, List.append_nil] at h4 h5 h6
        subst h4 h5 h6
        exact .allInForce he ht (repeal_both hr) hx
      | inForce he ht hr h hx =>
        simp only [List.flatMap_cons, List.flatMap_nil, List.append_nil] at h4 h5 h6
        subst h4 h5 h6
        exact .inForce he ht (repeal_both hr) h hx
  | amend ho hp hr he hs =>
    obtain ⟨ab, t, hd, ht, rfl⟩ := act_analysis (amend_tree ho hp hr he hs) ha
    cases ht with
    | amended hm hi h1 _ =>
      rcases one_some h1 with ⟨y, e, h⟩ | ⟨_, e, _⟩
      · cases e
        simp only [List.append_nil]
        exact .amend hm hi hd h
      · cases e
    | inserted _ _ _ h2 => exact absurd (one_none h2) (by simp)
    | both _ _ _ h2 _ _ => exact absurd (one_none h2) (by simp)
    | neither hm hi h1 _ =>
      rcases one_some h1 with ⟨y, e, h⟩ | ⟨_, _, h, hn⟩
      · cases e
      · simp only [List.append_nil]
        exact .amendSeveral hm hi hd h hn
  | insert ho hp hr he hs =>
    obtain ⟨ab, t, hd, ht, rfl⟩ := act_analysis (insert_tree ho hp hr he hs) ha
    cases ht with
    | amended _ _ h1 _ => exact absurd (one_none h1) (by simp)
    | inserted hm hi _ h2 =>
      rcases one_some h2 with ⟨y, e, h⟩ | ⟨_, e, _⟩
      · cases e
        simp only [List.append_nil]
        exact .insert hm hi hd h
      · cases e
    | both _ _ h1 _ _ _ => exact absurd (one_none h1) (by simp)
    | neither hm hi _ h2 =>
      rcases one_some h2 with ⟨y, e, h⟩ | ⟨_, _, h, hn⟩
      · cases e
      · simp only [List.append_nil]
        exact .insertSeveral hm hi hd h hn
  | amendInsert ho hp hr he hc hw hi hf hs =>
    obtain ⟨ab, t, hd, ht, rfl⟩ := act_analysis (amendInsert_tree ho hp hr he hc hw hi hf hs) ha
    cases ht with
    | amended hm hi h1 h2 =>
      rcases one_some h1 with ⟨y, e, h⟩ | ⟨_, e, _⟩
      · cases e
        rcases one_some h2 with ⟨_, e, _⟩ | ⟨_, _, h', hn⟩
        · cases e
        · simp only [List.append_nil]
          exact .amendOnly hm hi hd h h' hn
      · cases e
    | inserted hm hi h1 h2 =>
      rcases one_some h2 with ⟨y, e, h⟩ | ⟨_, e, _⟩
      · cases e
        rcases one_some h1 with ⟨_, e, _⟩ | ⟨_, _, h', hn⟩
        · cases e
        · simp only [List.append_nil]
          exact .insertOnly hm hi hd h' hn h
      · cases e
    | both hm hi h1 h2 hc hp =>
      rcases one_some h1 with ⟨y, e, h⟩ | ⟨_, e, _⟩
      · cases e
        rcases one_some h2 with ⟨z, e, h'⟩ | ⟨_, e, _⟩
        · cases e
          simp only [List.append_nil]
          exact .amendInsert hm hi hd h h' hc hp
        · cases e
      · cases e
    | neither hm hi h1 h2 =>
      rcases one_some h1 with ⟨y, e, h⟩ | ⟨_, _, h, hn⟩
      · cases e
      · rcases one_some h2 with ⟨y, e, h⟩ | ⟨_, _, h', hn'⟩
        · cases e
        · simp only [List.append_nil]
          exact .bothSeveral hm hi hd h hn h' hn'

/-! ## Lists with one item of each level -/

theorem reference_under {n : Nat} {ps : List ParsedPart} {w : Str} {q : ParsedPart} (h : ReferenceText n ps w)
    (hl : ∀ l, ps.getLast? = some l → Under l.kind q.kind) (ho : ∀ p ∈ ps ++ [q], ∃ x, OnlyItem p x) :
    Chained ((ps ++ [q]).flatMap ParsedPart.items) := by
  induction h with
  | @one n p w h =>
    obtain ⟨x, hx⟩ := ho p (by simp)
    obtain ⟨i, j, e⟩ := only_items hx
    obtain ⟨y, hy⟩ := ho q (by simp)
    obtain ⟨i', j', e'⟩ := only_items hy
    simp only [List.cons_append, List.nil_append, List.flatMap_cons, e, e', List.flatMap_nil, List.append_nil]
    exact .cons (hl p rfl) .one
  | @cons n p w r ps v h hu hs ih =>
    have ih := ih (fun l h => hl l (by rw [List.getLast?_cons_cons]; exact h)) fun p hp => ho p (List.mem_cons_of_mem _ hp)
    obtain ⟨x, hx⟩ := ho p (by simp)
    obtain ⟨i, j, e⟩ := only_items hx
    obtain ⟨y, hy⟩ := ho r (by simp)
    obtain ⟨i', j', e'⟩ := only_items hy
    simp only [List.cons_append, List.flatMap_cons, e, e', List.nil_append] at ih ⊢
    exact .cons hu ih

theorem insertion_pointed {n : Nat} {ps : List ParsedPart} {w : Str} (h : InsertionText n ps w) (ho : ∀ p ∈ ps, ∃ x, OnlyItem p x)
    (act : Option Str) (start stop : Int) : ∃ x, convertSingle act ps start stop = .ok [x] ∧ Pointed act (ps, start, stop) x := by
  obtain ⟨qs, e⟩ : ∃ qs, qs = ps := ⟨_, rfl⟩
  rw [← e] at h ho ⊢
  cases h with
  | article _ h => exact reference_pointed h ho act start stop
  | paragraph _ _ h => exact reference_pointed h ho act start stop
  | under hp h hl hq => exact chain_pointed (reference_under h hl ho) ho act start stop

theorem addition_pointed {n : Nat} {ps : List ParsedPart} {w : Str} (h : AdditionText n ps w) (ho : ∀ p ∈ ps, ∃ x, OnlyItem p x)
    (act : Option Str) (start stop : Int) : ∃ x, convertSingle act ps start stop = .ok [x] ∧ Pointed act (ps, start, stop) x := by
  obtain ⟨qs, e⟩ : ∃ qs, qs = ps := ⟨_, rfl⟩
  rw [← e] at h ho ⊢
  cases h with
  | insertion h => exact insertion_pointed h ho act start stop
  | under _ _ h hl hq => exact chain_pointed (reference_under h hl ho) ho act start stop
  | paragraph _ _ hq => exact reference_pointed (.one hq) ho act start stop
  | point _ _ hq => exact reference_pointed (.one hq) ho act start stop

theorem listed_once {act : Option Str} {r : ParsedRef} {xs : List OutgoingReference} (h : Listed act r xs)
    (hp : ∃ x, convertSingle act r.1 r.2.1 r.2.2 = .ok [x] ∧ Pointed act r x) : PointedOnce act r xs := by
  obtain ⟨x, h1, h2⟩ := hp
  unfold Listed at h
  rw [h1] at h
  cases h
  exact ⟨x, rfl, h2⟩

theorem listed_all {N : Naming} {rs : List ParsedRef} {xss : List (List OutgoingReference)} {act : Option Str}
    (hN : ∀ r ∈ rs, ∀ xs, Listed act r xs → N act r xs) (h : Both (Listed act) rs xss) : Both (N act) rs xss := by
  induction h with
  | nil => exact .nil
  | cons h _ ih => exact .cons (hN _ (List.mem_cons_self ..) _ h) (ih fun r hr => hN r (List.mem_cons_of_mem _ hr))

theorem reports_mono {N : Naming} {c : Change} {r : Analysis} (hN : ∀ x ∈ changeRefs c, ∀ act xs, Listed act x xs → N act x xs)
    (h : Reports Listed c r) : Reports N c r := by
  have ctx : ∀ {context rs ys}, (∀ x ∈ rs, x ∈ changeRefs c) → NamedInContext Listed context rs ys → NamedInContext N context rs ys := by
    rintro context rs ys hrs ⟨xss, h1, h2⟩
    exact ⟨xss, listed_all (fun r hr => hN r (hrs r hr) none) h1, h2⟩
  cases h with
  | texts ha hi hd h => exact .texts ha hi hd (ctx (fun _ h => h) h)
  | title ha hi hd => exact .title ha hi hd
  | repeal ha hi hd h => exact .repeal ha hi hd (ctx (fun _ h => h) h)
  | repealTexts ha hi hd h hl => exact .repealTexts ha hi hd (ctx (fun _ h => h) h) hl
  | allInForce he ht hr hx => exact .allInForce he ht hr (ctx (fun _ h => List.mem_append_right _ h) hx)
  | inForce he ht hr h hx => exact .inForce he ht hr (ctx (fun _ h => List.mem_append_left _ h) h) (ctx (fun _ h => List.mem_append_right _ h) hx)
  | amend ha hi hd h => exact .amend ha hi hd (hN _ (by simp [changeRefs]) _ _ h)
  | insert ha hi hd h => exact .insert ha hi hd (hN _ (by simp [changeRefs]) _ _ h)
  | amendInsert ha hi hd h hs hc hp => exact .amendInsert ha hi hd (hN _ (by simp [changeRefs]) _ _ h) (hN _ (by simp [changeRefs]) _ _ hs) hc hp
  | amendSeveral ha hi hd h hn => exact .amendSeveral ha hi hd (hN _ (by simp [changeRefs]) _ _ h) hn
  | insertSeveral ha hi hd h hn => exact .insertSeveral ha hi hd (hN _ (by simp [changeRefs]) _ _ h) hn
  | insertOnly ha hi hd h hn hs => exact .insertOnly ha hi hd (hN _ (by simp [changeRefs]) _ _ h) hn (hN _ (by simp [changeRefs]) _ _ hs)
  | amendOnly ha hi hd h hs hn => exact .amendOnly ha hi hd (hN _ (by simp [changeRefs]) _ _ h) (hN _ (by simp [changeRefs]) _ _ hs) hn
  | bothSeveral ha hi hd h hn hs hm =>
    exact .bothSeveral ha hi hd (hN _ (by simp [changeRefs]) _ _ h) hn (hN _ (by simp [changeRefs]) _ _ hs) hm

/-- The parts of changes are written as references or additions. -/
theorem change_texts {s : Str} {c : Change} (h : States s c) : ∀ r ∈ changeRefs c, ∃ n w, ReferenceText n r.1 w ∨ AdditionText n r.1 w := by
  have refs : ∀ {n rs v}, ReferencesText n rs v → ∀ r ∈ rs, ∃ n w, ReferenceText n r.1 w ∨ AdditionText n r.1 w := by
    intro n rs v h r hr
    obtain ⟨m, w, h, _⟩ := references_text h r hr
    exact ⟨m, w, .inl h⟩
  cases h with
  | texts _ _ hr _ _ _ => exact refs hr
  | title => simp [changeRefs]
  | repeal _ _ _ hr _ => exact refs hr
  | inForce _ hx hr _ _ =>
    intro r hm
    rcases List.mem_append.mp hm with hm | hm
    · rcases hr with ⟨e, _⟩ | ⟨v, _, h⟩
      · rw [e] at hm; cases hm
      · exact refs h r hm
    · rcases hx with ⟨e, _⟩ | ⟨_, _, ps, u, _, _, e, _, _, h, _⟩
      · rw [e] at hm; cases hm
      · rw [e] at hm
        cases List.mem_singleton.mp hm
        exact ⟨_, _, .inl h⟩
  | amend _ _ hr _ _ => simp only [changeRefs, List.mem_singleton, forall_eq]; exact ⟨_, _, .inl hr⟩
  | insert _ _ hr _ _ => simp only [changeRefs, List.mem_singleton, forall_eq]; exact ⟨_, _, .inr (.insertion hr)⟩
  | amendInsert _ _ hr _ _ _ hi _ _ =>
    intro r hm
    simp only [changeRefs, List.mem_cons, List.not_mem_nil, or_false] at hm
    rcases hm with rfl | rfl
    · exact ⟨_, _, .inl hr⟩
    · exact ⟨_, _, .inr hi⟩

theorem states_pointed {s : Str} {c : Change} {r : Analysis} (h : States s c) (ho : ∀ x ∈ changeRefs c, ∀ p ∈ x.1, ∃ i, OnlyItem p i)
    (ha : grammaticalAnalyzer parse s = .ok r) : Reports PointedOnce c r := by
  refine reports_mono (fun x hx act xs hl => listed_once hl ?_) (states_reported h ha)
  obtain ⟨n, w, h1 | h1⟩ := change_texts h x hx
  · exact reference_pointed h1 (ho x hx) act _ _
  · exact addition_pointed h1 (ho x hx) act _ _

/-! ## Success -/

theorem potential_total {s : Str} {gap : Str → Prop} {act : Str} {r : Option ParsedRef} (hw : ∀ x ∈ r, RefWritten s gap x) (hc : ¬ SubpointClash s) :
    Succeeds (convertPotentialInText act r) := by
  cases r with
  | none => exact succeeds_ok _
  | some x =>
    unfold convertPotentialInText convertPotential
    refine (single_total (some act) (hw x rfl) hc).bind fun xs _ => ?_
    split <;> exact succeeds_ok _

theorem block_total {s : Str} {a : ParsedActRef} {am ins : Option ParsedRef} (h : NodeWritten s (.blockAmendment a am ins)) (hc : ¬ SubpointClash s)
    (hn : ∀ id x y, OneListed id am (some x) → OneListed id ins (some y) → Succeeds (amendmentAndInsertion x.reference y.reference)) :
    Succeeds (convertNode (.blockAmendment a am ins)) := by
  obtain ⟨ha, h1, h2, _⟩ := h
  obtain ⟨h3, h4⟩ := act_total ha
  have p1 : ∀ id, Succeeds (convertPotentialInText id am) := fun id => potential_total h1 hc
  have p2 : ∀ id, Succeeds (convertPotentialInText id ins) := fun id => potential_total h2 hc
  refine Succeeds.bind ?_ fun _ _ => Succeeds.map ?_
  · refine h3.bind fun id _ => h4.bind fun _ _ => (p1 id).bind fun x _ => (p2 id).bind fun y _ => ?_
    cases x <;> cases y <;> exact succeeds_ok _
  · refine h3.bind fun id _ => ?_
    unfold convertPotentialReference
    obtain ⟨x, hx⟩ := p1 id
    obtain ⟨y, hy⟩ := p2 id
    rw [hx, hy]
    cases x with
    | none => cases y <;> exact succeeds_ok _
    | some x =>
      cases y with
      | none => exact succeeds_ok _
      | some y => exact (hn id x y (convertPotentialInText_one hx) (convertPotentialInText_one hy)).bind fun _ _ => succeeds_ok _

theorem act_tree_total {s : Str} {a : ParsedActRef} {n : GrammarNode} (hp : parse s = some (withAct a n))
    (hn : NodeWritten s n → Succeeds (convertNode n)) : Succeeds (grammaticalAnalyzer parse s) := by
  have hw := parse_written hp
  obtain ⟨rs, hr⟩ := convertTree_total (withAct a n) fun m hm => by
    have hm' : m ∈ [.actReference a, n] := hm
    simp only [List.mem_cons, List.not_mem_nil, or_false] at hm'
    rcases hm' with rfl | rfl
    · have h := hw _ hm
      refine Succeeds.map ?_
      unfold actAbbreviation
      split
      · exact succeeds_ok _
      · exact (act_total h).1.map
    · exact hn (hw _ hm)
  unfold grammaticalAnalyzer
  rw [hp]
  simp only [hr]
  exact succeeds_ok _

theorem stop_no_colon (u : Str) : ¬ EndsIn (u ++ py".") (amendmentEnds ++ subtitleEnds ++ insertionEnds) := by
  rintro ⟨e, he, t, ht⟩
  have h1 : ∀ e ∈ amendmentEnds ++ subtitleEnds ++ insertionEnds, e.getLast? = some ':' := by decide +kernel
  have h2 : (squeeze (u ++ py".")).getLast? = some '.' := by
    unfold squeeze
    rw [List.filter_append, show (py".").filter (fun c => !isSpace c) = py"." by decide +kernel, List.getLast?_append]
    rfl
  rw [← ht, List.getLast?_append, h1 e he] at h2
  cases h2

/-- Sentences with a full stop at their end. -/
theorem stopped_total {u : Str} (hc : ¬ SubpointClash (u ++ py".")) (hd : ¬ NoSuchDate (u ++ py".")) :
    Succeeds (grammaticalAnalyzer parse (u ++ py".")) := by
  refine analysis_total ?_ hc hd (stop_no_colon u)
  intro h
  have := h '.' (by simp)
  exact absurd this (by decide +kernel)

theorem states_total {s : Str} {c : Change} (h : States s c) (hc : ¬ SubpointClash s) (hd : ∀ d, c = .inForce d → ¬ NoSuchDate s)
    (hn : ∀ a x y, c = .amendInsert a x y → ComesAfter x y) : Succeeds (grammaticalAnalyzer parse s) := by
  have ended : ∀ {e : Str}, e ∈ [py" lép.", py" lép hatályba."] → ∀ u : Str, ∃ v, u ++ e = v ++ py"." := by
    intro e he u
    simp only [List.mem_cons, List.not_mem_nil, or_false] at he
    rcases he with rfl | rfl
    · exact ⟨u ++ py" lép", by simp⟩
    · exact ⟨u ++ py" lép hatályba", by simp⟩
  cases h with
  | texts ho ha hr hb hl he =>
    obtain ⟨qs, ht, -⟩ := texts_tree ho ha hr hb hl he
    obtain ⟨v, e⟩ := ended he _
    rw [e] at hc ht ⊢
    exact act_tree_total ht fun h => node_total h hc (fun _ h => by cases h) (stop_no_colon v)
  | title ho ha hx hg hi hn' hb hq hz he =>
    obtain ⟨ps, q1, q2, ht, -⟩ := title_tree ho ha hx hg hi hn' hb hq hz he
    obtain ⟨v, e⟩ := ended he _
    rw [e] at hc ht ⊢
    exact act_tree_total ht fun h => node_total h hc (fun _ h => by cases h) (stop_no_colon v)
  | repeal ho hb ha hr ht =>
    obtain ⟨qs, ht, -⟩ := repeal_tree ho hb ha hr ht
    exact act_tree_total ht fun h => node_total h hc (fun _ h => by cases h) (stop_no_colon _)
  | inForce => exact stopped_total hc (hd _ rfl)
  | amend ho hp hr he hs => exact act_tree_total (amend_tree ho hp hr he hs) fun h => block_total h hc fun _ _ _ _ h => absurd (one_none h) (by simp)
  | insert ho hp hr he hs => exact act_tree_total (insert_tree ho hp hr he hs) fun h => block_total h hc fun _ _ _ h _ => absurd (one_none h) (by simp)
  | amendInsert ho hp hr he hc' hw hi hf hs =>
    refine act_tree_total (amendInsert_tree ho hp hr he hc' hw hi hf hs) fun h => block_total h hc fun id x y h1 h2 => ?_
    rcases one_some h1 with ⟨_, e, h1⟩ | ⟨_, e, _⟩
    · cases e
      rcases one_some h2 with ⟨_, e, h2⟩ | ⟨_, e, _⟩
      · cases e
        obtain ⟨v1, v2, hf⟩ := hn _ _ _ rfl id _ _ _ h1 h2 (relativeTo_completes _ _)
        obtain ⟨p, hp, _⟩ := amendmentAndInsertion_follows v1 v2 hf
        exact ⟨p, hp⟩
      · cases e
    · cases e

end Verif.ActGrammar
