import Verif.Model.Extraction

/-! # Lemmas about extraction -/

namespace Verif

variable {α κ : Type} [DecidableEq κ] {x : Extraction α κ}

/-! ## One turn of the loop -/

theorem doWork_nil (n : Nat) : x.doWork n [] = some ⟨[], none⟩ := by
  unfold Extraction.doWork; rfl

theorem doWork_zero (q : List α) (d : α) : x.doWork 0 (q ++ [d]) = none := by
  unfold Extraction.doWork; simp

theorem doWork_result {n : Nat} {q : List α} {d : α} (h : x.classOf d ∈ x.resultClasses) :
    x.doWork (n + 1) (q ++ [d]) = (x.doWork n q).map fun g => ⟨d :: g.yields, g.stop⟩ := by
  conv => lhs; unfold Extraction.doWork
  simp [h]

theorem doWork_expand {n : Nat} {q : List α} {d : α} (h : x.classOf d ∉ x.resultClasses) :
    x.doWork (n + 1) (q ++ [d]) = match x.expand d q with
      | .ok queue => x.doWork n queue
      | .error e => some ⟨[], some e⟩ := by
  conv => lhs; unfold Extraction.doWork
  simp [h]
  rfl

theorem appendExtracted_eq (d : α) (fns : List (α → Gen α)) : ∀ q : List α,
    appendExtracted d fns q = (appendExtracted d fns []).map (q ++ ·) := by
  induction fns with
  | nil => intro q; simp [appendExtracted, Except.map]
  | cons fn fns ih =>
    intro q
    unfold appendExtracted
    cases (fn d).stop with
    | some e => rfl
    | none =>
      simp only
      rw [ih (q ++ _), ih ([] ++ _)]
      cases appendExtracted d fns [] with
      | error e => rfl
      | ok r => simp [Except.map]

omit [DecidableEq κ] in
theorem expand_eq (d : α) (q : List α) : x.expand d q = (x.expand d []).map (q ++ ·) := by
  unfold Extraction.expand
  cases x.extractors (x.classOf d) with
  | none => rfl
  | some fns => exact appendExtracted_eq d fns q

theorem doWork_mono {n : Nat} : ∀ {q : List α} {g : Gen α}, x.doWork n q = some g → x.doWork (n + 1) q = some g := by
  induction n with
  | zero =>
    intro q g h
    rcases List.eq_nil_or_concat q with rfl | ⟨q, d, rfl⟩
    · rw [doWork_nil] at h ⊢; exact h
    · rw [List.concat_eq_append, doWork_zero] at h; cases h
  | succ n ih =>
    intro q g h
    rcases List.eq_nil_or_concat q with rfl | ⟨q, d, rfl⟩
    · rw [doWork_nil] at h ⊢; exact h
    · rw [List.concat_eq_append] at h ⊢
      by_cases hr : x.classOf d ∈ x.resultClasses
      · rw [doWork_result hr] at h ⊢
        obtain ⟨g', hg, rfl⟩ := Option.map_eq_some_iff.mp h
        rw [ih hg]; rfl
      · rw [doWork_expand hr] at h ⊢
        cases he : x.expand d q with
        | error e => rw [he] at h; exact h
        | ok q' => rw [he] at h; exact ih h

theorem doWork_le {n m : Nat} (hnm : n ≤ m) {q : List α} {g : Gen α} (h : x.doWork n q = some g) :
    x.doWork m q = some g := by
  induction hnm with
  | refl => exact h
  | step _ ih => exact doWork_mono ih

/-- The work on a queue ends in this way. -/
def Extraction.Ends (x : Extraction α κ) (q : List α) (g : Gen α) : Prop := ∃ n, x.doWork n q = some g

theorem ends_unique {q : List α} {g g' : Gen α} (h : x.Ends q g) (h' : x.Ends q g') : g = g' := by
  obtain ⟨n, h⟩ := h
  obtain ⟨m, h'⟩ := h'
  have h1 := doWork_le (Nat.le_max_left n m) h
  have h2 := doWork_le (Nat.le_max_right n m) h'
  rw [h1] at h2
  exact Option.some.inj h2

theorem ends_nil : x.Ends [] ⟨[], none⟩ := ⟨0, doWork_nil 0⟩

/-! ## Queues with two parts -/

theorem ends_split {n : Nat} : ∀ {q₁ q₂ : List α} {g : Gen α}, x.doWork n (q₁ ++ q₂) = some g →
    ∃ g₂, x.Ends q₂ g₂ ∧ ((g₂.stop = none ∧ ∃ g₁, x.Ends q₁ g₁ ∧ g = ⟨g₂.yields ++ g₁.yields, g₁.stop⟩) ∨
      (g₂.stop ≠ none ∧ g = g₂)) := by
  induction n with
  | zero =>
    intro q₁ q₂ g h
    rcases List.eq_nil_or_concat q₂ with rfl | ⟨q₂, d, rfl⟩
    · exact ⟨_, ends_nil, .inl ⟨rfl, g, ⟨0, by simpa using h⟩, rfl⟩⟩
    · rw [List.concat_eq_append, ← List.append_assoc, doWork_zero] at h; cases h
  | succ n ih =>
    intro q₁ q₂ g h
    rcases List.eq_nil_or_concat q₂ with rfl | ⟨q₂, d, rfl⟩
    · exact ⟨_, ends_nil, .inl ⟨rfl, g, ⟨n + 1, by simpa using h⟩, rfl⟩⟩
    · rw [List.concat_eq_append, ← List.append_assoc] at h
      rw [List.concat_eq_append]
      by_cases hr : x.classOf d ∈ x.resultClasses
      · rw [doWork_result hr] at h
        obtain ⟨g', hg, rfl⟩ := Option.map_eq_some_iff.mp h
        obtain ⟨g₂, ⟨m, hm⟩, h2⟩ := ih hg
        refine ⟨⟨d :: g₂.yields, g₂.stop⟩, ⟨m + 1, by rw [doWork_result hr, hm]; rfl⟩, ?_⟩
        rcases h2 with ⟨h2, g₁, h3, rfl⟩ | ⟨h2, rfl⟩
        · exact .inl ⟨h2, g₁, h3, rfl⟩
        · exact .inr ⟨h2, rfl⟩
      · rw [doWork_expand hr, expand_eq] at h
        cases he : x.expand d [] with
        | error e =>
          rw [he] at h
          have h : some (⟨[], some e⟩ : Gen α) = some g := h
          refine ⟨⟨[], some e⟩, ⟨1, ?_⟩, .inr ⟨by simp, (Option.some.inj h).symm⟩⟩
          rw [doWork_expand hr, expand_eq, he]; rfl
        | ok xs =>
          rw [he] at h
          have h : x.doWork n (q₁ ++ q₂ ++ xs) = some g := h
          rw [List.append_assoc] at h
          obtain ⟨g₂, ⟨m, hm⟩, h2⟩ := ih h
          refine ⟨g₂, ⟨m + 1, ?_⟩, h2⟩
          rw [doWork_expand hr, expand_eq, he]
          exact hm

theorem ends_join {n : Nat} : ∀ {q₁ q₂ : List α} {ys : List α} {g₁ : Gen α}, x.doWork n q₂ = some ⟨ys, none⟩ →
    x.Ends q₁ g₁ → x.Ends (q₁ ++ q₂) ⟨ys ++ g₁.yields, g₁.stop⟩ := by
  induction n with
  | zero =>
    intro q₁ q₂ ys g₁ h h1
    rcases List.eq_nil_or_concat q₂ with rfl | ⟨q₂, d, rfl⟩
    · rw [doWork_nil] at h; cases h; simpa using h1
    · rw [List.concat_eq_append, doWork_zero] at h; cases h
  | succ n ih =>
    intro q₁ q₂ ys g₁ h h1
    rcases List.eq_nil_or_concat q₂ with rfl | ⟨q₂, d, rfl⟩
    · rw [doWork_nil] at h; cases h; simpa using h1
    · rw [List.concat_eq_append] at h ⊢
      rw [← List.append_assoc]
      by_cases hr : x.classOf d ∈ x.resultClasses
      · rw [doWork_result hr] at h
        obtain ⟨⟨zs, s⟩, hg, he⟩ := Option.map_eq_some_iff.mp h
        cases he
        obtain ⟨m, hm⟩ := ih hg h1
        exact ⟨m + 1, by rw [doWork_result hr, hm]; rfl⟩
      · rw [doWork_expand hr, expand_eq] at h
        cases he : x.expand d [] with
        | error e => rw [he] at h; cases h
        | ok xs =>
          rw [he] at h
          obtain ⟨m, hm⟩ := ih h h1
          refine ⟨m + 1, ?_⟩
          rw [doWork_expand hr, expand_eq, he]
          simpa [Except.map] using hm

theorem ends_stopped {n : Nat} : ∀ {q₁ q₂ : List α} {ys : List α} {e : Err}, x.doWork n q₂ = some ⟨ys, some e⟩ →
    x.Ends (q₁ ++ q₂) ⟨ys, some e⟩ := by
  induction n with
  | zero =>
    intro q₁ q₂ ys e h
    rcases List.eq_nil_or_concat q₂ with rfl | ⟨q₂, d, rfl⟩
    · rw [doWork_nil] at h; cases h
    · rw [List.concat_eq_append, doWork_zero] at h; cases h
  | succ n ih =>
    intro q₁ q₂ ys e h
    rcases List.eq_nil_or_concat q₂ with rfl | ⟨q₂, d, rfl⟩
    · rw [doWork_nil] at h; cases h
    · rw [List.concat_eq_append] at h ⊢
      rw [← List.append_assoc]
      by_cases hr : x.classOf d ∈ x.resultClasses
      · rw [doWork_result hr] at h
        obtain ⟨⟨zs, s⟩, hg, he⟩ := Option.map_eq_some_iff.mp h
        cases he
        obtain ⟨m, hm⟩ := ih (q₁ := q₁) hg
        exact ⟨m + 1, by rw [doWork_result hr, hm]; rfl⟩
      · rw [doWork_expand hr, expand_eq] at h
        cases he : x.expand d [] with
        | error e' =>
          rw [he] at h
          refine ⟨1, ?_⟩
          rw [doWork_expand hr, expand_eq, he]
          exact h
        | ok xs =>
          rw [he] at h
          obtain ⟨m, hm⟩ := ih (q₁ := q₁) h
          refine ⟨m + 1, ?_⟩
          rw [doWork_expand hr, expand_eq, he]
          simpa [Except.map] using hm

/-! ## Each object on its own -/

/-- The results of each object, in the order of the objects. -/
inductive Each (x : Extraction α κ) : List α → List α → Prop
  | nil : Each x [] []
  | cons {o os ys zs} (h : x.Ends [o] ⟨ys, none⟩) (hs : Each x os zs) : Each x (o :: os) (ys ++ zs)

theorem Each.append {os os' zs zs' : List α} (h : Each x os zs) (h' : Each x os' zs') : Each x (os ++ os') (zs ++ zs') := by
  induction h with
  | nil => exact h'
  | cons h _ ih => rw [List.cons_append, List.append_assoc]; exact .cons h ih

theorem Each.unique {os zs zs' : List α} (h : Each x os zs) (h' : Each x os zs') : zs = zs' := by
  induction h generalizing zs' with
  | nil => cases h'; rfl
  | cons h _ ih =>
    cases h' with
    | cons h2 hs2 =>
      have := ends_unique h h2
      cases this
      rw [ih hs2]

theorem Each.perm {os os' : List α} (hp : os.Perm os') : ∀ {zs : List α}, Each x os zs → ∃ zs', Each x os' zs' ∧ zs.Perm zs' := by
  induction hp with
  | nil => intro zs h; exact ⟨zs, h, .refl _⟩
  | cons o _ ih =>
    intro zs h
    cases h with
    | cons h hs =>
      obtain ⟨zs', h1, h2⟩ := ih hs
      exact ⟨_, .cons h h1, .append_left _ h2⟩
  | swap a b l =>
    intro zs h
    cases h with
    | cons h hs =>
      cases hs with
      | cons h' hs =>
        refine ⟨_, .cons h' (.cons h hs), ?_⟩
        rw [← List.append_assoc, ← List.append_assoc]
        exact .append_right _ List.perm_append_comm
  | trans _ _ ih1 ih2 =>
    intro zs h
    obtain ⟨z1, h1, p1⟩ := ih1 h
    obtain ⟨z2, h2, p2⟩ := ih2 h1
    exact ⟨z2, h2, p1.trans p2⟩

theorem each_of_ends {os : List α} : ∀ {ys : List α}, x.Ends os ⟨ys, none⟩ → ∃ zs, Each x os zs ∧ zs.Perm ys := by
  induction os with
  | nil =>
    intro ys h
    have := ends_unique h ends_nil
    cases this
    exact ⟨[], .nil, .refl _⟩
  | cons o os ih =>
    intro ys ⟨n, h⟩
    rw [show o :: os = [o] ++ os from rfl] at h
    obtain ⟨⟨y2, s2⟩, h2, ⟨hs, ⟨y1, s1⟩, h1, he⟩ | ⟨hs, he⟩⟩ := ends_split h
    · simp only at hs
      subst hs
      cases he
      obtain ⟨zs, hz, hp⟩ := ih h2
      exact ⟨_, .cons h1 hz, (List.Perm.append_left _ hp).trans List.perm_append_comm⟩
    · cases he
      exact absurd rfl hs

theorem ends_of_each {os zs : List α} (h : Each x os zs) : ∃ ys, x.Ends os ⟨ys, none⟩ ∧ zs.Perm ys := by
  induction h with
  | nil => exact ⟨[], ends_nil, .refl _⟩
  | @cons o os ys zs h _ ih =>
    obtain ⟨ws, ⟨n, hn⟩, hp⟩ := ih
    exact ⟨ws ++ ys, ends_join (q₁ := [o]) hn h, (List.Perm.append_left _ hp).trans List.perm_append_comm⟩

/-! ## The pool -/

/-- What holds in every state. -/
def PoolInv (x : Extraction α κ) (objects : List α) (s : PoolState α) : Prop :=
  (∀ e, s.failed = some e → ∃ o ∈ objects, ∃ ys, x.Ends [o] ⟨ys, some e⟩) ∧
  ∃ done, (done ++ s.running ++ s.pending).Perm objects ∧ Each x done s.out ∨
    s.failed.isSome

theorem poolStep_inv {w : Nat} {objects : List α} {s t : PoolState α} (hi : PoolInv x objects s) (h : PoolStep x w s t) :
    PoolInv x objects t := by
  obtain ⟨-, done, hd⟩ := hi
  cases h with
  | start hw =>
    rcases hd with ⟨hp, he⟩ | hd
    · refine ⟨by simp, done, .inl ⟨?_, he⟩⟩
      simpa using hp
    · cases hd
  | @finish n o p r₁ r₂ out ys hn =>
    rcases hd with ⟨hp, he⟩ | hd
    · refine ⟨by simp, done ++ [o], .inl ⟨?_, ?_⟩⟩
      · refine List.Perm.trans ?_ hp
        simp only [List.append_assoc]
        refine .append_left _ ?_
        exact (List.perm_middle (l₁ := r₁)).symm.trans (by simp)
      · have := he.append (.cons ⟨n, hn⟩ .nil)
        simpa using this
    · cases hd
  | @fail n o p r₁ r₂ out ys e hn =>
    refine ⟨?_, done, .inr rfl⟩
    rintro e' he
    cases he
    rcases hd with ⟨hp, -⟩ | hd
    · exact ⟨o, hp.subset (by simp), ys, n, hn⟩
    · cases hd

theorem poolRun_inv {w n : Nat} {objects : List α} {s t : PoolState α} (h : PoolRun x w n s t) (hi : PoolInv x objects s) :
    PoolInv x objects t := by
  induction h with
  | refl => exact hi
  | step h _ ih => exact ih (poolStep_inv hi h)

theorem pool_start (objects : List α) : PoolInv x objects ⟨objects, [], [], none⟩ :=
  ⟨by simp, [], .inl ⟨by simp, .nil⟩⟩

/-- What is left to do. -/
def PoolState.work (s : PoolState α) : Nat := 2 * s.pending.length + s.running.length

theorem poolStep_work {w : Nat} {s t : PoolState α} (h : PoolStep x w s t) : t.work + 1 ≤ s.work := by
  cases h <;> simp [PoolState.work] <;> omega

theorem poolRun_work {w n : Nat} {s t : PoolState α} (h : PoolRun x w n s t) : t.work + n ≤ s.work := by
  induction h with
  | refl => simp
  | step h _ ih => have := poolStep_work h; omega

/-- If the work on each object ends, an unfinished pool goes on. -/
theorem pool_progress {w : Nat} (hw : 0 < w) {objects : List α} (ho : ∀ o ∈ objects, ∃ g, x.Ends [o] g)
    {s : PoolState α} (hi : PoolInv x objects s) (hf : ¬ s.finished) : ∃ t, PoolStep x w s t := by
  obtain ⟨p, r, out, f⟩ := s
  obtain ⟨-, done, hd⟩ := hi
  cases f with
  | some e => exact absurd (.inl rfl) hf
  | none =>
    rcases hd with ⟨hp, -⟩ | hd
    · cases r with
      | nil =>
        cases p with
        | nil => exact absurd (.inr ⟨rfl, rfl⟩) hf
        | cons o p => exact ⟨_, .start (by simpa using hw)⟩
      | cons o r =>
        obtain ⟨⟨ys, stop⟩, n, hn⟩ := ho o (hp.subset (by simp))
        cases stop with
        | none => exact ⟨_, .finish (r₁ := []) hn⟩
        | some e => exact ⟨_, .fail (r₁ := []) hn⟩
    · cases hd

theorem pool_finishes {w : Nat} (hw : 0 < w) {objects : List α} (ho : ∀ o ∈ objects, ∃ g, x.Ends [o] g) :
    ∀ (k : Nat) (s : PoolState α), s.work ≤ k → PoolInv x objects s → ∃ n t, PoolRun x w n s t ∧ t.finished := by
  intro k
  induction k with
  | zero =>
    intro s hk hi
    refine ⟨0, s, .refl _, .inr ?_⟩
    unfold PoolState.work at hk
    exact ⟨List.eq_nil_of_length_eq_zero (by omega), List.eq_nil_of_length_eq_zero (by omega)⟩
  | succ k ih =>
    intro s hk hi
    by_cases hf : s.finished
    · exact ⟨0, s, .refl _, hf⟩
    · obtain ⟨t, ht⟩ := pool_progress hw ho hi hf
      have := poolStep_work ht
      obtain ⟨n, u, hu, hfu⟩ := ih t (by omega) (poolStep_inv hi ht)
      exact ⟨n + 1, u, .step ht hu, hfu⟩

theorem Each.mem {os zs : List α} (h : Each x os zs) : ∀ o ∈ os, ∃ ys, x.Ends [o] ⟨ys, none⟩ := by
  induction h with
  | nil => simp
  | cons h _ ih =>
    intro o ho
    rcases List.mem_cons.mp ho with rfl | ho
    · exact ⟨_, h⟩
    · exact ih o ho

theorem Each.ends {os zs : List α} (h : Each x os zs) : ∀ o ∈ os, ∃ g, x.Ends [o] g := fun o ho =>
  let ⟨_, h⟩ := h.mem o ho
  ⟨_, h⟩

/-! ## One object -/

theorem ends_result {d : α} (h : x.classOf d ∈ x.resultClasses) (g : Gen α) : x.Ends [d] g ↔ g = ⟨[d], none⟩ := by
  have hd : x.Ends [d] ⟨[d], none⟩ := ⟨1, by
    rw [show [d] = [] ++ [d] from rfl, doWork_result h, doWork_nil]; rfl⟩
  exact ⟨fun h => ends_unique h hd, fun h => h ▸ hd⟩

theorem ends_expand {d : α} (h : x.classOf d ∉ x.resultClasses) (g : Gen α) :
    x.Ends [d] g ↔ (∃ q, x.expand d [] = .ok q ∧ x.Ends q g) ∨ ∃ e, x.expand d [] = .error e ∧ g = ⟨[], some e⟩ := by
  have key : ∀ n, x.doWork (n + 1) [d] = match x.expand d [] with
      | .ok queue => x.doWork n queue
      | .error e => some ⟨[], some e⟩ := fun n => doWork_expand (q := []) h
  constructor
  · rintro ⟨n, hn⟩
    cases n with
    | zero => rw [show [d] = [] ++ [d] from rfl, doWork_zero] at hn; cases hn
    | succ n =>
      rw [key] at hn
      cases he : x.expand d [] with
      | ok q => rw [he] at hn; exact .inl ⟨q, rfl, n, hn⟩
      | error e => rw [he] at hn; exact .inr ⟨e, rfl, (Option.some.inj hn).symm⟩
  · rintro (⟨q, he, n, hn⟩ | ⟨e, he, rfl⟩)
    · exact ⟨n + 1, by rw [key, he]; exact hn⟩
    · exact ⟨1, by rw [key, he]⟩

/-- The queue is worked on from its end. -/
theorem ends_cons (d : α) (q ys : List α) :
    x.Ends (d :: q) ⟨ys, none⟩ ↔ ∃ a b, x.Ends q ⟨a, none⟩ ∧ x.Ends [d] ⟨b, none⟩ ∧ ys = a ++ b := by
  constructor
  · rintro ⟨n, hn⟩
    obtain ⟨⟨a, s⟩, h2, ⟨hs, ⟨b, t⟩, h1, he⟩ | ⟨hs, he⟩⟩ := ends_split (q₁ := [d]) hn
    · cases hs
      simp only [Gen.mk.injEq] at he
      obtain ⟨rfl, rfl⟩ := he
      exact ⟨a, b, h2, h1, rfl⟩
    · cases he; exact absurd rfl hs
  · rintro ⟨a, b, ⟨n, h2⟩, h1, rfl⟩
    exact ends_join (q₁ := [d]) h2 h1

/-- What the parts of a queue end with, the queue ends with. -/
theorem ends_of_parts {q : List α} (h : ∀ o ∈ q, ∃ g, x.Ends [o] g) : ∃ g, x.Ends q g := by
  induction q with
  | nil => exact ⟨_, ends_nil⟩
  | cons d q ih =>
    obtain ⟨⟨a, s⟩, hq⟩ := ih fun o ho => h o (by simp [ho])
    obtain ⟨g, hd⟩ := h d (by simp)
    cases s with
    | none =>
      obtain ⟨n, hn⟩ := hq
      exact ⟨_, ends_join (q₁ := [d]) hn hd⟩
    | some e =>
      obtain ⟨n, hn⟩ := hq
      exact ⟨_, ends_stopped (q₁ := [d]) hn⟩

/-- What a finished execution of the pool has done. -/
theorem pool_result {w n : Nat} {objects : List α} {s : PoolState α} (h : PoolRun x w n ⟨objects, [], [], none⟩ s)
    (hf : s.finished) : (s.failed = none ∧ ∃ zs, Each x objects zs ∧ s.out.Perm zs) ∨
      ∃ e, s.failed = some e ∧ ∃ o ∈ objects, ∃ ys, x.Ends [o] ⟨ys, some e⟩ := by
  obtain ⟨h1, done, h2⟩ := poolRun_inv h (pool_start objects)
  cases hfs : s.failed with
  | some e => exact .inr ⟨e, rfl, h1 e hfs⟩
  | none =>
    left
    rcases hf with hf | ⟨hp, hr⟩
    · rw [hfs] at hf; cases hf
    · rcases h2 with ⟨h2, h3⟩ | h2
      · rw [hp, hr] at h2
        simp only [List.append_nil] at h2
        obtain ⟨zs, h4, h5⟩ := h3.perm h2
        exact ⟨rfl, zs, h4, h5⟩
      · rw [hfs] at h2; cases h2

end Verif
