import Verif.Spec.Editor
import Verif.Props.Fixups
import Verif.Proofs.Dict

/-! # Lemmas about the editor of fix-ups -/

namespace Verif

open Verif.Spec

/-! ## Lines that can be cut anywhere -/

theorem cutAnywhere_border {l : Line} (h : CutAnywhere l) : ∀ k ≤ l.content.length, Border l k := by
  have key : ∀ (ps : List Part), (∀ p ∈ ps, p.content.length ≤ 1) → ∀ k ≤ (ps.flatMap (·.content)).length,
      ∃ pre post, ps = pre ++ post ∧ (pre.flatMap (·.content)).length = k := by
    intro ps
    induction ps with
    | nil => intro _ k hk; exact ⟨[], [], rfl, by simp at hk ⊢; omega⟩
    | cons p ps ih =>
      intro hp k hk
      by_cases h0 : k = 0
      · exact ⟨[], p :: ps, rfl, by simp [h0]⟩
      · have h1 := hp p (List.mem_cons_self ..)
        rw [List.flatMap_cons, List.length_append] at hk
        obtain ⟨pre, post, rfl, hl⟩ := ih (fun q hq => hp q (List.mem_cons_of_mem _ hq)) (k - p.content.length) (by omega)
        exact ⟨p :: pre, post, rfl, by rw [List.flatMap_cons, List.length_append, hl]; omega⟩
  exact fun k hk => key l.parts h k hk

theorem cutAnywhere_inside {l : Line} (h : CutAnywhere l) (k : Nat) : ¬ InsideLastPart l k := by
  rintro ⟨pre, last, he, h1, h2⟩
  have := h last (by rw [he]; simp)
  rw [Line.content, he] at h2
  simp at h1 h2
  omega

/-! ## Counting places -/

theorem pySlice_at {α : Type} (a n b : List α) : pySlice (a ++ n ++ b) a.length (a.length + n.length) = n := by
  unfold pySlice
  have h1 : pyBound (a ++ n ++ b).length ((a.length : Int) + n.length) = (a ++ n).length := by
    unfold pyBound
    rw [if_neg (by omega)]
    simp; omega
  have h2 : pyBound (a ++ n ++ b).length (a.length : Int) = a.length := by
    unfold pyBound
    rw [if_neg (by omega)]
    simp
  rw [h1, h2, List.take_left, List.drop_left]

/-- If a list is found once, there are no two places where it is, apart from the very end. -/
theorem counted_once {haystack needle a b a' b' : List Str} (h : countSublists haystack needle = 1)
    (h1 : haystack = a ++ needle ++ b) (hb : b ≠ []) (h2 : haystack = a' ++ needle ++ b') (hb' : b' ≠ []) :
    a.length = a'.length := by
  have mem : ∀ {x y : List Str}, haystack = x ++ needle ++ y → y ≠ [] →
      x.length ∈ (List.range (haystack.length - needle.length)).filter
        fun i : Nat => pySlice haystack i (i + needle.length) = needle := by
    intro x y he hy
    have := List.length_pos_iff.mpr hy
    rw [List.mem_filter, List.mem_range]
    refine ⟨by rw [he]; simp; omega, ?_⟩
    rw [he, pySlice_at]
    simp
  obtain ⟨i, hi⟩ := List.length_eq_one_iff.mp h
  have m1 := mem h1 hb
  have m2 := mem h2 hb'
  rw [hi, List.mem_singleton] at m1 m2
  rw [m1, m2]

/-! ## Replacing one line -/

theorem noneWanted_loop {needle replacement : Str} {prev : Option (List Str)} {ls : List Line} :
    ∀ {result rest : List Line} {count : Nat}, NoneWanted needle prev result ls →
      replaceLoop needle replacement prev result count (ls ++ rest) =
        replaceLoop needle replacement prev (result ++ ls) count rest := by
  induction ls with
  | nil => intro result rest count _; simp
  | cons l ls ih =>
    intro result rest count h
    have hl := h [] l ls rfl
    rw [List.append_nil] at hl
    rw [List.cons_append, replaceLoop, if_pos ((wanted_iff ..).mpr hl), ih]
    · simp
    · intro p x q he
      have := h (l :: p) x q (by rw [he]; rfl)
      rwa [List.append_assoc]

theorem replace_succeeds_with {needle replacement : Str} {prev : Option (List Str)} {before after : List Line} {l r : Line}
    (hl : Wanted needle prev before l) (hb : NoneWanted needle prev [] before)
    (hr : replacedLine needle replacement l = .ok r) (hne : replacement ≠ [])
    (ha : NoneWanted needle prev (before ++ [r]) after) :
    replaceLineContent needle replacement prev (before ++ l :: after) = .ok (before ++ r :: after) := by
  unfold replaceLineContent
  rw [noneWanted_loop hb, List.nil_append, replaceLoop, if_neg (fun h => (wanted_iff ..).mp h hl), if_pos hne, hr]
  simp only [Bind.bind, Except.bind]
  have := noneWanted_loop (replacement := replacement) (rest := []) (count := 1) ha
  rw [List.append_nil] at this
  rw [Nat.zero_add, this, replaceLoop]
  simp [checkCount]

/-! ## What is extracted for a line -/

/-- The replacement that was extracted for a line: the text was that of no other line, or it was found once together with the
lines before it. -/
def ExtractedFor (old : List Str) (done : List Line) (o n : Str) (rest : List Str) (r : Replacement) : Prop :=
  r.needle = o ∧ r.replacement = n ∧
    ((r.needlePrevLines = none ∧ old.count o = 1) ∨
      ∃ front prev, r.needlePrevLines = some prev ∧ old.count o ≠ 1 ∧ done.map Line.content = front ++ prev ∧
        countSublists (front ++ (prev ++ [o]) ++ rest) (prev ++ [o]) = 1)

theorem context_suffix (new : List Str) (k b : Nat) : ∃ front, new.take k = front ++ pySlice new ((k : Int) - b) k := by
  have hk : new.take (pyBound new.length (k : Int)) = new.take k := by
    unfold pyBound
    rw [if_neg (by omega)]
    simp only [Int.toNat_natCast]
    by_cases h : k ≤ new.length
    · rw [Nat.min_eq_left h]
    · rw [Nat.min_eq_right (by omega), List.take_length, List.take_of_length_le (by omega)]
  unfold pySlice
  rw [hk]
  exact ⟨_, (List.take_append_drop _ _).symm⟩

theorem contextLoop_ok {old new : List Str} {k : Nat} {o n : Str} {r : Replacement} : ∀ {lens : List Nat},
    contextLoop old new k o n lens = .ok r → ∃ front prev, r = ⟨o, n, some prev⟩ ∧ new.take k = front ++ prev ∧
      countSublists (new.take k ++ old.drop k) (prev ++ [o]) = 1
  | [], h => by cases h
  | b :: bs, h => by
    unfold contextLoop at h
    simp only at h
    split at h
    · rename_i hc
      cases h
      obtain ⟨front, hf⟩ := context_suffix new k b
      exact ⟨front, _, rfl, hf, hc⟩
    · exact contextLoop_ok h

theorem extractLoop_changed {o0 : List Str} {done : List Line} {o n : Str} {os ns : List Str} {rs : List Replacement}
    (hlen : o0.length = done.length) (hne : o ≠ n)
    (h : extractLoop (o0 ++ o :: os) (done.map Line.content ++ n :: ns) done.length ((o :: os).zip (n :: ns)) = .ok rs) :
    ∃ r rs', rs = r :: rs' ∧ ExtractedFor (o0 ++ o :: os) done o n os r ∧
      extractLoop (o0 ++ o :: os) (done.map Line.content ++ n :: ns) (done.length + 1) (os.zip ns) = .ok rs' := by
  rw [List.zip_cons_cons] at h
  unfold extractLoop at h
  rw [if_neg hne] at h
  by_cases hc : (o0 ++ o :: os).count o = 1
  · simp only [if_pos hc] at h
    obtain ⟨r, hr, h⟩ := resBind_ok h
    obtain ⟨rs', hrs, h⟩ := resBind_ok h
    cases h
    refine ⟨r, rs', rfl, ?_, hrs⟩
    cases hr
    exact ⟨rfl, rfl, .inl ⟨rfl, hc⟩⟩
  · simp only [if_neg hc] at h
    obtain ⟨r, hr, h⟩ := resBind_ok h
    obtain ⟨rs', hrs, h⟩ := resBind_ok h
    cases h
    refine ⟨r, rs', rfl, ?_, hrs⟩
    obtain ⟨front, prev, rfl, h1, h2⟩ := contextLoop_ok hr
    have ht : (done.map Line.content ++ n :: ns).take done.length = done.map Line.content := by
      rw [show done.length = (done.map Line.content).length from by simp, List.take_left]
    have hd : (o0 ++ o :: os).drop done.length = o :: os := by rw [← hlen, List.drop_left]
    rw [ht] at h1 h2
    rw [hd, h1] at h2
    refine ⟨rfl, rfl, .inr ⟨front, prev, rfl, hc, h1, ?_⟩⟩
    simpa using h2

/-- The line that a replacement was extracted for is wanted. -/
theorem extracted_wanted {old : List Str} {done : List Line} {l : Line} {n : Str} {rest : List Str} {r : Replacement}
    (h : ExtractedFor old done l.content n rest r) : Wanted r.needle r.needlePrevLines done l := by
  obtain ⟨h1, -, h3⟩ := h
  refine ⟨h1.symm, fun texts ht => ?_⟩
  rcases h3 with ⟨h3, -⟩ | ⟨front, prev, h3, -, h4, -⟩
  · rw [h3] at ht; cases ht
  · rw [h3] at ht
    cases ht
    exact ⟨front, h4⟩

/-- No line before is wanted, unless the replacement has no context. -/
theorem extracted_before {old : List Str} {done before q : List Line} {l x : Line} {n : Str} {rest : List Str} {r : Replacement}
    (h : ExtractedFor old done l.content n rest r) (hrest : rest ≠ [] ∨ old.count l.content = 1) (hd : done = before ++ x :: q)
    (hw : Wanted r.needle r.needlePrevLines before x) : r.needlePrevLines = none := by
  obtain ⟨h1, -, h3⟩ := h
  rcases h3 with ⟨h3, -⟩ | ⟨front, prev, h3, h4, h5, h6⟩
  · exact h3
  · exfalso
    obtain ⟨w1, w2⟩ := hw
    obtain ⟨front', hf⟩ := w2 prev h3
    have hrest : rest ≠ [] := hrest.resolve_right h4
    have e : front ++ (prev ++ [l.content]) ++ rest =
        front' ++ (prev ++ [l.content]) ++ (q.map Line.content ++ l.content :: rest) := by
      have : front ++ prev = front' ++ (prev ++ x.content :: q.map Line.content) := by
        rw [← h5, hd, List.map_append, hf]; simp
      rw [w1, h1] at this
      calc front ++ (prev ++ [l.content]) ++ rest = (front ++ prev) ++ l.content :: rest := by simp
        _ = _ := by rw [this]; simp
    have := counted_once h6 rfl hrest e (by simp)
    have h7 := congrArg List.length h5
    rw [hd] at h7
    have h8 := congrArg List.length hf
    simp at h7 h8
    omega

theorem split_cases {α : Type} {a b a' b' : List α} {x x' : α} (h : a ++ x :: b = a' ++ x' :: b') :
    (a = a' ∧ x = x' ∧ b = b') ∨ (∃ q, a = a' ++ x' :: q ∧ b' = q ++ x :: b) ∨ ∃ q, a' = a ++ x :: q ∧ b = q ++ x' :: b' := by
  rcases List.append_eq_append_iff.mp h with ⟨t, h1, h2⟩ | ⟨t, h1, h2⟩
  · cases t with
    | nil =>
      obtain ⟨rfl, rfl⟩ := List.cons.inj h2
      exact .inl ⟨by simpa using h1.symm, rfl, rfl⟩
    | cons y t =>
      obtain ⟨rfl, rfl⟩ := List.cons.inj h2
      exact .inr (.inr ⟨t, h1, rfl⟩)
  · cases t with
    | nil =>
      obtain ⟨rfl, rfl⟩ := List.cons.inj h2
      exact .inl ⟨by simpa using h1, rfl, rfl⟩
    | cons y t =>
      obtain ⟨rfl, rfl⟩ := List.cons.inj h2
      exact .inr (.inl ⟨t, h1, rfl⟩)

/-- If the replacement that was extracted for a line can be made, this line is replaced. -/
theorem extracted_replaces {old : List Str} {done after out : List Line} {l : Line} {n : Str} {r : Replacement}
    (h : ExtractedFor old done l.content n (after.map Line.content) r) (hlast : after ≠ [] ∨ old.count l.content = 1)
    (hcut : CutAnywhere l) (hne : n ≠ []) (ho : r.fixup (done ++ l :: after) = .ok out) :
    ∃ x, out = done ++ x :: after ∧ x.content = n := by
  have hw := extracted_wanted h
  obtain ⟨before, l', after', mid, k1, k2, k3, k4, k5, -, k7⟩ := Props.replaced_line ho
  have hn : r.replacement = n := h.2.1
  obtain ⟨x, lost, rfl, h1, h2⟩ := k7 (by rw [hn]; exact hne)
  have hx : ∀ (hl : l' = l), x.content = n := by
    intro hl
    subst hl
    have : lost = [] := Classical.byContradiction fun hc => cutAnywhere_inside hcut _ (h2 hc).1
    rw [this, List.append_nil] at h1
    rw [h1, hn]
  rcases split_cases k1 with ⟨rfl, rfl, rfl⟩ | ⟨q, hq, rfl⟩ | ⟨q, hq, rfl⟩
  · exact ⟨x, by simpa using k2, hx rfl⟩
  · exfalso
    have hnone := extracted_before h (hlast.imp_left (by simpa using ·)) hq k3
    exact k5 q l after rfl ⟨hw.1, fun t ht => by rw [hnone] at ht; cases ht⟩
  · exact absurd hw (k4 done l q hq)

/-- If the new text is fresh, the replacement that was extracted for a line can be made. -/
theorem extracted_succeeds {old : List Str} {done after : List Line} {l : Line} {n : Str} {r : Replacement}
    (h : ExtractedFor old done l.content n (after.map Line.content) r)
    (hdone : old.count l.content = 1 → ∀ x ∈ done ++ after, x.content ≠ l.content)
    (hlast : old.count l.content = 1 ∨ ((after.map Line.content).getLast? ≠ some l.content ∧ after ≠ []))
    (hcut : CutAnywhere l) (hne : n ≠ []) (hn : n ∉ done.map Line.content) :
    ∃ out, r.fixup (done ++ l :: after) = .ok out := by
  have hw := extracted_wanted h
  obtain ⟨x, hx⟩ := replacedLine_succeeds r.replacement hw.1 (cutAnywhere_border hcut) (cutAnywhere_inside hcut)
  have hxn : x.content = n := by
    obtain ⟨lost, e1, e2, -⟩ := replacedLine_text hw.1 hx
    have : lost = [] := Classical.byContradiction fun hc => cutAnywhere_inside hcut _ (e2 hc).1
    rw [this, List.append_nil] at e1
    rw [e1, h.2.1]
  refine ⟨_, replace_succeeds_with hw ?_ hx (by rw [h.2.1]; exact hne) ?_⟩
  · intro p y q hp hwy
    have hnone := extracted_before h (hlast.symm.imp_left fun e => by simpa using e.2) hp hwy
    rcases h.2.2 with ⟨-, hc⟩ | ⟨_, _, hs, -⟩
    · exact hdone hc y (by rw [hp]; simp) (hwy.1.trans h.1)
    · rw [hnone] at hs; cases hs
  · rintro p y q hp ⟨w1, w2⟩
    rcases h.2.2 with ⟨-, hc⟩ | ⟨front, prev, hs, hc, hd, hcount⟩
    · exact hdone hc y (by rw [hp]; simp) (w1.trans h.1)
    · obtain ⟨front', hf⟩ := w2 prev hs
      have hafter := hlast.resolve_left hc
      have hyl : y.content = l.content := w1.trans h.1
      have hq : q ≠ [] := by
        rintro rfl
        apply hafter.1
        rw [hp]
        simp [hyl]
      simp only [List.map_append, List.map_cons, hxn, List.append_assoc, List.singleton_append] at hf
      rcases List.append_eq_append_iff.mp hf with ⟨t, e1, e2⟩ | ⟨t, e1, e2⟩
      · -- the context begins after the lines before
        cases t with
        | nil =>
          apply hn
          have hm : n ∈ prev := by rw [← List.nil_append prev, ← e2]; simp
          rw [hd]; simp [hm]
        | cons z t =>
          obtain ⟨rfl, e3⟩ := List.cons.inj e2
          have e3 : p.map Line.content = t ++ prev := e3
          have e : front ++ (prev ++ [l.content]) ++ after.map Line.content =
              (front ++ prev ++ l.content :: t) ++ (prev ++ [l.content]) ++ q.map Line.content := by
            rw [hp]
            simp [e3, hyl]
          have := counted_once hcount rfl (by simpa using hafter.2) e (by simpa using hq)
          simp at this
      · apply hn
        have hm : n ∈ prev := by rw [e2]; simp
        rw [hd]; simp [hm]

/-! ## All lines -/

theorem extractLoop_same {old new : List Str} {k : Nat} {o : Str} {os ns : List Str} :
    extractLoop old new k ((o :: os).zip (o :: ns)) = extractLoop old new (k + 1) (os.zip ns) := by
  rw [List.zip_cons_cons]
  conv => lhs; unfold extractLoop
  rw [if_pos rfl]

theorem getLast_zip_cons {o n : Str} {os ns : List Str} {p : Str × Str} (h : (os.zip ns).getLast? = some p) :
    ((o :: os).zip (n :: ns)).getLast? = some p := by
  rw [List.zip_cons_cons]
  cases hz : os.zip ns with
  | nil => rw [hz] at h; cases h
  | cons x xs => rw [List.getLast?_cons_cons, ← hz, h]

theorem extracted_sound : ∀ (rest : List Line) (ns : List Str) (done : List Line) (o0 : List Str) (rs : List Replacement)
    (out : List Line), ns.length = rest.length → o0.length = done.length →
    extractLoop (o0 ++ rest.map Line.content) (done.map Line.content ++ ns) done.length ((rest.map Line.content).zip ns) =
      .ok rs →
    (∀ l ∈ rest, CutAnywhere l) → (∀ p ∈ (rest.map Line.content).zip ns, p.1 ≠ p.2 → p.2 ≠ []) →
    (∀ p, ((rest.map Line.content).zip ns).getLast? = some p → p.1 ≠ p.2 → (o0 ++ rest.map Line.content).count p.1 = 1) →
    Applied (rs.map Replacement.fixup) (done ++ rest) out → out.map Line.content = done.map Line.content ++ ns
  | [], ns, done, o0, rs, out, hlen, _, h, _, _, _, ha => by
    have : ns = [] := List.eq_nil_of_length_eq_zero hlen
    subst this
    simp only [List.map_nil, List.zip_nil_left, extractLoop] at h
    cases h
    cases ha
    simp
  | l :: ls, [], done, o0, rs, out, hlen, _, h, _, _, _, ha => by simp at hlen
  | l :: ls, n :: ns, done, o0, rs, out, hlen, h0, h, hcut, hne, hlast, ha => by
    have hlen' : ns.length = ls.length := by simpa using hlen
    have go : ∀ (x : Line) (rs' : List Replacement), x.content = n →
        extractLoop (o0 ++ (l :: ls).map Line.content) (done.map Line.content ++ n :: ns) (done.length + 1)
          ((ls.map Line.content).zip ns) = .ok rs' →
        Applied (rs'.map Replacement.fixup) (done ++ x :: ls) out →
        out.map Line.content = done.map Line.content ++ n :: ns := by
      intro x rs' hx hrs hap
      have := extracted_sound ls ns (done ++ [x]) (o0 ++ [l.content]) rs' out hlen' (by simp [h0])
        (by simpa [hx] using hrs) (fun y hy => hcut y (List.mem_cons_of_mem _ hy))
        (fun p hp => hne p (by rw [List.map_cons, List.zip_cons_cons]; exact List.mem_cons_of_mem _ hp))
        (fun p hp hpne => by
          have := hlast p (by rw [List.map_cons]; exact getLast_zip_cons hp) hpne
          simpa using this)
        (by simpa using hap)
      simpa [hx] using this
    by_cases hsame : l.content = n
    · subst hsame
      rw [List.map_cons, extractLoop_same] at h
      exact go l rs rfl h ha
    · rw [List.map_cons] at h
      obtain ⟨r, rs', rfl, hr, hrs⟩ := extractLoop_changed h0 hsame h
      cases ha with
      | next h1 h2 =>
        have hl : ls ≠ [] ∨ (o0 ++ l.content :: ls.map Line.content).count l.content = 1 := by
          by_cases hls : ls = []
          · right
            subst hls
            have : ns = [] := List.eq_nil_of_length_eq_zero hlen'
            subst this
            exact hlast (l.content, n) rfl hsame
          · exact .inl hls
        have hn : n ≠ [] := hne (l.content, n) (by simp) hsame
        obtain ⟨x, rfl, hx⟩ := extracted_replaces hr hl (hcut l (List.mem_cons_self ..)) hn h1
        exact go x rs' hx hrs h2

theorem extracted_complete : ∀ (rest : List Line) (ns : List Str) (done : List Line) (o0 : List Str) (rs : List Replacement),
    ns.length = rest.length → o0.length = done.length →
    extractLoop (o0 ++ rest.map Line.content) (done.map Line.content ++ ns) done.length ((rest.map Line.content).zip ns) =
      .ok rs →
    (∀ l ∈ rest, CutAnywhere l) →
    (∀ p ∈ (rest.map Line.content).zip ns, p.1 ≠ p.2 → p.2 ≠ [] ∧ p.2 ∉ rest.map Line.content ∧
      (done.map Line.content ++ ns).count p.2 = 1 ∧
      ((o0 ++ rest.map Line.content).count p.1 = 1 ∨ (o0 ++ rest.map Line.content).getLast? ≠ some p.1)) →
    (∀ x ∈ done, x.content ∈ o0 ∨ x.content ∉ rest.map Line.content) →
    ∃ out, Applied (rs.map Replacement.fixup) (done ++ rest) out
  | [], ns, done, o0, rs, hlen, _, h, _, _, _ => by
    have : ns = [] := List.eq_nil_of_length_eq_zero hlen
    subst this
    simp only [List.map_nil, List.zip_nil_left, extractLoop] at h
    cases h
    exact ⟨_, .none _⟩
  | l :: ls, [], done, o0, rs, hlen, _, h, _, _, _ => by simp at hlen
  | l :: ls, n :: ns, done, o0, rs, hlen, h0, h, hcut, hp, hdone => by
    have hlen' : ns.length = ls.length := by simpa using hlen
    have go : ∀ (x : Line) (rs' : List Replacement), x.content = n → (n ≠ l.content → n ∉ ls.map Line.content) →
        extractLoop (o0 ++ (l :: ls).map Line.content) (done.map Line.content ++ n :: ns) (done.length + 1)
          ((ls.map Line.content).zip ns) = .ok rs' →
        ∃ out, Applied (rs'.map Replacement.fixup) (done ++ x :: ls) out := by
      intro x rs' hx hnew hrs
      have := extracted_complete ls ns (done ++ [x]) (o0 ++ [l.content]) rs' hlen' (by simp [h0])
        (by simpa [hx] using hrs) (fun y hy => hcut y (List.mem_cons_of_mem _ hy))
        (fun p hpm hpne => by
          obtain ⟨a, b, c, d⟩ := hp p (by rw [List.map_cons, List.zip_cons_cons]; exact List.mem_cons_of_mem _ hpm) hpne
          refine ⟨a, fun hm => b (by simp [List.mem_map.mp hm]), by simpa [hx] using c, by simpa using d⟩)
        (fun y hy => by
          rcases List.mem_append.mp hy with hy | hy
          · rcases hdone y hy with hy | hy
            · exact .inl (by simp [hy])
            · exact .inr fun hm => hy (by rw [List.map_cons]; exact List.mem_cons_of_mem _ hm)
          · rw [List.mem_singleton.mp hy, hx]
            by_cases hnl : n = l.content
            · exact .inl (by simp [hnl])
            · exact .inr (hnew hnl))
      simpa using this
    by_cases hsame : l.content = n
    · subst hsame
      rw [List.map_cons, extractLoop_same] at h
      exact go l rs rfl (fun hc => absurd rfl hc) h
    · rw [List.map_cons] at h
      obtain ⟨r, rs', rfl, hr, hrs⟩ := extractLoop_changed h0 hsame h
      obtain ⟨a, b, c, d⟩ := hp (l.content, n) (by simp) hsame
      have hcut' := hcut l (List.mem_cons_self ..)
      have hcount : (o0 ++ l.content :: ls.map Line.content).count l.content = 1 →
          l.content ∉ o0 ∧ l.content ∉ ls.map Line.content := by
        intro hc
        rw [List.count_append, List.count_cons_self] at hc
        exact ⟨List.count_eq_zero.mp (by omega), List.count_eq_zero.mp (by omega)⟩
      have hn : n ∉ done.map Line.content := by
        simp only at c
        rw [List.count_append, List.count_cons_self] at c
        exact List.count_eq_zero.mp (by omega)
      have hlast : (o0 ++ l.content :: ls.map Line.content).count l.content = 1 ∨
          ((ls.map Line.content).getLast? ≠ some l.content ∧ ls ≠ []) := by
        rcases d with d | d
        · exact .inl d
        · right
          cases hls : ls with
          | nil => subst hls; simp at d
          | cons z zs => subst hls; simpa [List.getLast?_append, List.getLast?_cons_cons] using d
      obtain ⟨out, ho⟩ := extracted_succeeds hr (fun hc x hx => by
          obtain ⟨c1, c2⟩ := hcount hc
          rcases List.mem_append.mp hx with hx | hx
          · rcases hdone x hx with hx | hx
            · intro he; rw [he] at hx; exact c1 hx
            · intro he; rw [he] at hx; simp at hx
          · intro he; exact c2 (he ▸ List.mem_map.mpr ⟨x, hx, rfl⟩)) hlast hcut' a hn
      obtain ⟨x, rfl, hx⟩ := extracted_replaces hr (hlast.symm.imp_left And.right) hcut' a ho
      obtain ⟨out', ho'⟩ := go x rs' hx (fun _ hm => b (by rw [List.map_cons]; exact List.mem_cons_of_mem _ hm)) hrs
      exact ⟨out', .next ho ho'⟩

/-! ## What is extracted -/

theorem contextLoop_error {old new : List Str} {k : Nat} {o n : Str} {e : Err} : ∀ {lens : List Nat},
    contextLoop old new k o n lens = .error e → e = .valueError
  | [], h => by cases h; rfl
  | b :: bs, h => by
    unfold contextLoop at h
    simp only at h
    split at h
    · cases h
    · exact contextLoop_error h

theorem extractLoop_changes {old new : List Str} : ∀ {ps : List (Str × Str)} {k : Nat} {rs : List Replacement},
    extractLoop old new k ps = .ok rs → rs.map (fun r => (r.needle, r.replacement)) = ps.filter fun p => p.1 ≠ p.2
  | [], _, rs, h => by cases h; rfl
  | (o, n) :: ps, k, rs, h => by
    unfold extractLoop at h
    by_cases hs : o = n
    · rw [if_pos hs] at h
      rw [extractLoop_changes h, List.filter_cons_of_neg (by simpa using hs)]
    · rw [if_neg hs] at h
      rw [List.filter_cons_of_pos (by simpa using hs)]
      by_cases hc : old.count o = 1
      · simp only [if_pos hc] at h
        obtain ⟨r, hr, h⟩ := resBind_ok h
        obtain ⟨rs', hrs, h⟩ := resBind_ok h
        cases hr
        cases h
        rw [List.map_cons, extractLoop_changes hrs]
      · simp only [if_neg hc] at h
        obtain ⟨r, hr, h⟩ := resBind_ok h
        obtain ⟨rs', hrs, h⟩ := resBind_ok h
        obtain ⟨_, prev, rfl, -⟩ := contextLoop_ok hr
        cases h
        rw [List.map_cons, extractLoop_changes hrs]

theorem extractLoop_error {old new : List Str} {e : Err} : ∀ {ps : List (Str × Str)} {k : Nat},
    extractLoop old new k ps = .error e → e = .valueError ∧ ∃ p ∈ ps, p.1 ≠ p.2 ∧ old.count p.1 ≠ 1
  | [], _, h => by cases h
  | (o, n) :: ps, k, h => by
    unfold extractLoop at h
    by_cases hs : o = n
    · rw [if_pos hs] at h
      obtain ⟨h1, p, hp, h2⟩ := extractLoop_error h
      exact ⟨h1, p, List.mem_cons_of_mem _ hp, h2⟩
    · rw [if_neg hs] at h
      have go : ∀ r : Replacement, (do let rs ← extractLoop old new (k + 1) ps; Except.ok (r :: rs)) = Except.error e →
          e = .valueError ∧ ∃ p ∈ (o, n) :: ps, p.1 ≠ p.2 ∧ old.count p.1 ≠ 1 := by
        intro r hr
        cases hm : extractLoop old new (k + 1) ps with
        | ok rs => rw [hm] at hr; cases hr
        | error e' =>
          rw [hm] at hr
          cases hr
          obtain ⟨h1, p, hp, h2⟩ := extractLoop_error hm
          exact ⟨h1, p, List.mem_cons_of_mem _ hp, h2⟩
      by_cases hc : old.count o = 1
      · simp only [if_pos hc] at h
        exact go _ h
      · simp only [if_neg hc] at h
        cases hr : contextLoop old new k o n contextLengths with
        | ok r => rw [hr] at h; exact go r h
        | error e' =>
          rw [hr] at h
          cases h
          exact ⟨contextLoop_error hr, (o, n), List.mem_cons_self .., hs, hc⟩

/-! ## Saving -/

theorem get?_of_mem {α : Type} {d : Dict Str α} (hd : d.keys.Nodup) {e : Str × α} (he : e ∈ d) : d.get? e.1 = some e.2 := by
  induction d with
  | nil => cases he
  | cons x xs ih =>
    rw [Dict.get?_cons]
    have hn := List.nodup_cons.mp (show (x.1 :: Dict.keys xs).Nodup from hd)
    rcases List.mem_cons.mp he with rfl | he
    · rw [if_pos rfl]
    · rw [if_neg (fun hx => hn.1 (by rw [hx]; exact List.mem_map.mpr ⟨e, he, rfl⟩))]
      exact ih hn.2 he

theorem get?_perm {α : Type} {d d' : Dict Str α} (hp : d.Perm d') (hd : d.keys.Nodup) (k : Str) : d'.get? k = d.get? k := by
  have hd' : d'.keys.Nodup := (hp.map _).nodup_iff.mp hd
  have to : ∀ {a b : Dict Str α}, a.Perm b → a.keys.Nodup → b.keys.Nodup → ∀ v, a.get? k = some v → b.get? k = some v := by
    intro a b hab ha hb v hv
    unfold Dict.get? at hv
    cases hf : a.find? (fun e => e.1 = k) with
    | none => rw [hf] at hv; cases hv
    | some e =>
      rw [hf] at hv
      cases hv
      have hk : e.1 = k := by simpa using List.find?_some hf
      rw [← hk]
      exact get?_of_mem hb (hab.mem_iff.mp (List.mem_of_find?_eq_some hf))
  cases hv : d.get? k with
  | some v => exact to hp hd hd' v hv
  | none =>
    cases hv' : d'.get? k with
    | none => rfl
    | some v => rw [to hp.symm hd' hd v hv'] at hv; cases hv

theorem registered_append (a b : List (Str × FixupFn)) (k : Str) : registered (a ++ b) k = registered a k ++ registered b k := by
  simp [registered]

theorem registered_saved {saved : Replacements} (h : saved.keys.Nodup) (k : Str) :
    registered (savedFixups saved) k = ((saved.get? k).getD []).map Replacement.fixup := by
  have one : ∀ (e : Str × List Replacement), registered (e.2.map fun r => (e.1, r.fixup)) k =
      if e.1 = k then e.2.map Replacement.fixup else [] := by
    intro e
    unfold registered
    by_cases hk : e.1 = k
    · rw [if_pos hk, List.filter_eq_self.mpr (by simp [hk])]
      simp [Function.comp_def]
    · rw [if_neg hk, List.filter_eq_nil_iff.mpr (by simp [hk])]
      rfl
  induction saved with
  | nil => rfl
  | cons e es ih =>
    have hn := List.nodup_cons.mp (show (e.1 :: Dict.keys es).Nodup from h)
    unfold savedFixups at ih ⊢
    rw [List.flatMap_cons, registered_append, ih hn.2, one, Dict.get?_cons]
    by_cases hk : e.1 = k
    · rw [if_pos hk, if_pos hk]
      have : Dict.get? es k = none := by
        cases hg : Dict.get? es k with
        | none => rfl
        | some v => exact absurd ((Dict.mem_keys_iff es k).mpr ⟨v, hg⟩) (hk ▸ hn.1)
      rw [this]; simp
    · rw [if_neg hk, if_neg hk]; simp

theorem saveReplacements_get {saved : Replacements} (h : saved.keys.Nodup) (identifier : Str) (rs : List Replacement) (k : Str) :
    ((saveReplacements saved identifier rs).get? k).getD [] =
      (saved.get? k).getD [] ++ (if k = identifier then rs else []) := by
  unfold saveReplacements
  simp only
  generalize hd : (if (saved.get? identifier).isNone then saved.set identifier [] else saved) = d
  have hdn : d.keys.Nodup := by
    rw [← hd]; split
    · exact Dict.nodup_set h _ _
    · exact h
  have hg : ∀ k, (d.get? k).getD [] = (saved.get? k).getD [] := by
    intro k
    rw [← hd]; split
    · rename_i hn
      rw [Dict.get?_set]
      split
      · rename_i hk
        rw [hk, Option.isNone_iff_eq_none.mp hn]; rfl
      · rfl
    · rfl
  rw [get?_perm (List.mergeSort_perm _ _).symm (Dict.nodup_set hdn _ _), Dict.get?_set]
  by_cases hk : k = identifier
  · rw [if_pos hk, if_pos hk, Option.getD_some, hg, hk]
  · rw [if_neg hk, if_neg hk, hg, List.append_nil]

theorem saveReplacements_nodup {saved : Replacements} (h : saved.keys.Nodup) (identifier : Str) (rs : List Replacement) :
    (saveReplacements saved identifier rs).keys.Nodup := by
  unfold saveReplacements
  simp only
  have : ∀ d : Replacements, d.keys.Nodup → (Dict.keys (d.mergeSort fun a b => !strLt b.1 a.1)).Nodup := fun d hd =>
    ((List.mergeSort_perm d _).map _).nodup_iff.mpr hd
  apply this
  apply Dict.nodup_set
  split
  · exact Dict.nodup_set h _ _
  · exact h

/-- The registrations after saving. -/
theorem saved_registrations {saved : Replacements} (h : saved.keys.Nodup) (byHand : List (Str × FixupFn)) (identifier : Str)
    (rs : List Replacement) (k : Str) : registered (byHand ++ savedFixups (saveReplacements saved identifier rs)) k =
      registered (byHand ++ savedFixups saved) k ++ (if k = identifier then rs.map Replacement.fixup else []) := by
  rw [registered_append, registered_append, registered_saved h, registered_saved (saveReplacements_nodup h _ _),
    saveReplacements_get h, List.map_append, List.append_assoc]
  by_cases hk : k = identifier
  · rw [if_pos hk, if_pos hk]
  · rw [if_neg hk, if_neg hk]; rfl

theorem applied_append {a b : List FixupFn} {body mid out : List Line} (h : Applied a body mid) :
    Applied (a ++ b) body out ↔ Applied b mid out := by
  induction h with
  | none => rfl
  | next h1 _ ih =>
    constructor
    · rintro (_ | ⟨h2, h3⟩)
      rw [h1] at h2
      cases h2
      exact ih.mp h3
    · intro h3
      exact .next h1 (ih.mpr h3)

/-! ## The file to edit -/

theorem pyStrip_around {a t b : Str} (ha : Spaces a) (hb : Spaces b) (ht : NoSpaceAround t) : pyStrip (a ++ t ++ b) = t := by
  have drop : ∀ {a t : Str}, Spaces a → (∀ c, t.head? = some c → isSpace c = false) → (a ++ t).dropWhile isSpace = t := by
    intro a t ha hc
    induction a with
    | nil =>
      cases t with
      | nil => rfl
      | cons c cs => rw [List.nil_append, List.dropWhile_cons_of_neg (by simpa using hc c rfl)]
    | cons x xs ih =>
      rw [List.cons_append, List.dropWhile_cons_of_pos (ha x (List.mem_cons_self ..))]
      exact ih fun c hx => ha c (List.mem_cons_of_mem _ hx)
  have hb' : Spaces b.reverse := fun c hc => hb c (List.mem_reverse.mp hc)
  unfold pyStrip
  cases t with
  | nil =>
    have h1 : (a ++ [] ++ b).dropWhile isSpace = [] := by
      have := drop (a := a ++ b) (t := []) (fun c hc => (List.mem_append.mp hc).elim (ha c) (hb c)) (by simp)
      simpa using this
    rw [h1]; rfl
  | cons c cs =>
    have h1 : (a ++ (c :: cs) ++ b).dropWhile isSpace = c :: cs ++ b := by
      rw [List.append_assoc]
      exact drop ha (by simpa using ht.1 c rfl)
    rw [h1, List.reverse_append]
    have h2 : (b.reverse ++ (c :: cs).reverse).dropWhile isSpace = (c :: cs).reverse :=
      drop hb' (by rw [List.head?_reverse]; exact ht.2)
    rw [h2, List.reverse_reverse]

theorem noSpaceAround_of_strip {s : Str} (h : pyStrip s = s) : NoSpaceAround s := by
  have dw : ∀ (s : Str) (c : Char), (s.dropWhile isSpace).head? = some c → isSpace c = false := by
    intro s c hc
    induction s with
    | nil => cases hc
    | cons x xs ih =>
      by_cases hx : isSpace x = true
      · rw [List.dropWhile_cons_of_pos hx] at hc; exact ih hc
      · rw [List.dropWhile_cons_of_neg hx] at hc
        cases hc
        simpa using hx
  have hlast : ∀ c, s.getLast? = some c → isSpace c = false := by
    intro c hc
    rw [← h] at hc
    unfold pyStrip at hc
    rw [List.getLast?_reverse] at hc
    exact dw _ c hc
  refine ⟨fun c hc => ?_, hlast⟩
  have hlen : (s.dropWhile isSpace).length = s.length := by
    have h1 : s.length ≤ (s.dropWhile isSpace).length := by
      conv => lhs; rw [← h]
      unfold pyStrip
      rw [List.length_reverse]
      calc _ ≤ (s.dropWhile isSpace).reverse.length := (List.dropWhile_sublist _).length_le
        _ = _ := List.length_reverse
    exact Nat.le_antisymm (List.dropWhile_sublist _).length_le h1
  have : s.dropWhile isSpace = s := (List.dropWhile_sublist _).eq_of_length hlen
  rw [← this] at hc
  exact dw s c hc

theorem fileLines_line {s rest : Str} (h : '\n' ∉ s) : fileLines (s ++ '\n' :: rest) = (s ++ ['\n']) :: fileLines rest := by
  induction s with
  | nil => rw [List.nil_append, fileLines, if_pos rfl]; rfl
  | cons c cs ih =>
    have hc : c ≠ '\n' := fun e => h (by simp [e])
    rw [List.cons_append, fileLines, if_neg hc, ih fun hm => h (List.mem_cons_of_mem _ hm)]
    rfl

theorem universalNewlines_eq : ∀ {s : Str}, '\r' ∉ s → universalNewlines s = s
  | [], _ => rfl
  | c :: cs, h => by
    have hc : c ≠ '\r' := fun e => h (by simp [e])
    have ih := universalNewlines_eq (s := cs) fun hm => h (List.mem_cons_of_mem _ hm)
    rw [universalNewlines.eq_3 c cs (by rintro _ rfl _; exact hc rfl), if_neg hc, ih]

theorem editedFile_no_return {file : Str} {texts : List Str} (h : EditedFile file texts) : '\r' ∉ file := by
  induction h with
  | nil => simp
  | line first before text after h5 hb ha ht hl hs ih =>
    intro hm
    rcases List.mem_append.mp hm with hm | hm
    · exact hl.2 hm
    · rcases List.mem_cons.mp hm with hm | hm
      · cases hm
      · exact ih hm

theorem editedFile_read {file : Str} {texts : List Str} (h : EditedFile file texts) : readEditLines file = texts := by
  unfold readEditLines
  rw [universalNewlines_eq (editedFile_no_return h)]
  induction h with
  | nil => rfl
  | line first before text after h5 hb ha ht hl hs ih =>
    rw [fileLines_line hl.1, List.map_cons, ih]
    congr 1
    have : (first ++ before ++ text ++ after ++ ['\n']).drop 5 = before ++ text ++ (after ++ ['\n']) := by
      rw [← h5]; simp
    rw [this]
    refine pyStrip_around hb ?_ ht
    intro c hc
    rcases List.mem_append.mp hc with hc | hc
    · exact ha c hc
    · rw [List.mem_singleton.mp hc]; decide

theorem natStr_length {n k : Nat} (h : n < 10 ^ (k + 1)) : (natStr n).length ≤ k + 1 := by
  induction k generalizing n with
  | zero => rw [natStr_lt (by simpa using h)]; simp
  | succ k ih =>
    by_cases hn : n < 10
    · rw [natStr_lt hn]; simp
    · rw [natStr_ge (by omega), List.length_append]
      have := ih (n := n / 10) (by rw [Nat.pow_succ] at h; omega)
      simp; omega

theorem intStr_no {i : Int} {c : Char} (h : isAsciiDigit c = false) (hm : c ≠ '-') : c ∉ intStr i := by
  have hn : ∀ n, c ∉ natStr n := fun n hc => by have := natStr_ascii n c hc; rw [h] at this; cases this
  unfold intStr
  split
  · intro hc
    rcases List.mem_cons.mp hc with hc | hc
    · exact hm hc
    · exact hn _ hc
  · exact hn _

theorem intStr_length {i : Int} (h1 : -9999 ≤ i) (h2 : i ≤ 99999) : (intStr i).length ≤ 5 := by
  unfold intStr
  split
  · have := natStr_length (n := i.natAbs) (k := 3) (by omega)
    simp; omega
  · exact natStr_length (k := 4) (by omega)

theorem editLine_edited {level : Int} {l : Line} {file : Str} {texts : List Str} (h1 : -9999 ≤ level) (h2 : level ≤ 99999)
    (hs : pyStrip l.content = l.content) (hl : OnOneLine l.content) (hf : EditedFile file texts) :
    EditedFile (editLine level l ++ file) (l.content :: texts) := by
  have key : ∃ first before, padLeft 4 (intStr level) ++ ' ' :: List.replicate (pyTrunc (l.indent * (1 / 5))).toNat ' ' ++ [' '] =
      first ++ before ∧ first.length = 5 ∧ Spaces before := by
    have hlen := intStr_length h1 h2
    by_cases h4 : (intStr level).length ≤ 4
    · refine ⟨padLeft 4 (intStr level) ++ [' '], List.replicate (pyTrunc (l.indent * (1 / 5))).toNat ' ' ++ [' '], by simp, ?_, ?_⟩
      · unfold padLeft; simp; omega
      · intro c hc
        simp at hc
        rcases hc with ⟨-, rfl⟩ | rfl <;> decide
    · refine ⟨intStr level, ' ' :: (List.replicate (pyTrunc (l.indent * (1 / 5))).toNat ' ' ++ [' ']), ?_, by omega, ?_⟩
      · unfold padLeft
        rw [show 4 - (intStr level).length = 0 by omega]
        simp
      · intro c hc
        simp at hc
        rcases hc with rfl | ⟨-, rfl⟩ | rfl <;> decide
  obtain ⟨first, before, he, h5, hb⟩ := key
  have hno : ∀ c : Char, isAsciiDigit c = false → c ≠ '-' → c ≠ ' ' → c ∉ first ++ before := by
    intro c hd hm hsp hc
    rw [← he] at hc
    unfold padLeft at hc
    simp only [List.mem_append, List.mem_cons, List.mem_replicate, List.not_mem_nil, or_false] at hc
    rcases hc with ((⟨-, hc⟩ | hc) | hc | ⟨-, hc⟩) | hc
    · exact hsp hc
    · exact intStr_no hd hm hc
    · exact hsp hc
    · exact hsp hc
    · exact hsp hc
  have e : editLine level l ++ file = first ++ before ++ l.content ++ [] ++ '\n' :: file := by
    unfold editLine
    rw [← he]
    simp
  rw [e]
  refine .line first before l.content [] h5 hb (fun c hc => by cases hc) (noSpaceAround_of_strip hs) ?_ hf
  rw [List.append_nil]
  constructor
  · intro hc
    rcases List.mem_append.mp hc with hc | hc
    · exact hno '\n' (by decide) (by decide) (by decide) hc
    · exact hl.1 hc
  · intro hc
    rcases List.mem_append.mp hc with hc | hc
    · exact hno '\r' (by decide) (by decide) (by decide) hc
    · exact hl.2 hc

theorem levels_get (ls : List Line) : ∀ (level : Int) (j : Nat), (quoteLevelLoop false level ls).yields[j]? =
    ls[j]?.map fun l => (level + openQuotes (ls.take j), l) := by
  induction ls with
  | nil => intro level j; simp [quoteLevelLoop]
  | cons l ls ih =>
    intro level j
    simp only [quoteLevelLoop, Bool.false_and, Bool.false_eq_true, if_false]
    cases j with
    | zero => simp [openQuotes]
    | succ j =>
      rw [List.getElem?_cons_succ, ih, List.getElem?_cons_succ, List.take_succ_cons]
      congr 1
      funext x
      rw [Props.quoteLevelDiff_eq]
      simp [openQuotes, Int.add_assoc]

theorem levels_length (ls : List Line) : ∀ level : Int, (quoteLevelLoop false level ls).yields.length = ls.length := by
  induction ls with
  | nil => intro level; rfl
  | cons l ls ih => intro level; simp [quoteLevelLoop, ih]

theorem writeEditLines_iff : ∀ {ys : List (Int × Line)} {file : Str}, writeEditLines ys = .ok file ↔
    (∀ y ∈ ys, pyStrip y.2.content = y.2.content) ∧ file = ys.flatMap fun y => editLine y.1 y.2
  | [], file => by
    unfold writeEditLines
    constructor
    · rintro ⟨⟩; exact ⟨by simp, rfl⟩
    · rintro ⟨-, rfl⟩; rfl
  | (level, l) :: ys, file => by
    unfold writeEditLines
    by_cases h : pyStrip l.content = l.content
    · rw [if_neg (by simpa using h)]
      constructor
      · intro hw
        obtain ⟨rest, hr, hw⟩ := resBind_ok hw
        cases hw
        obtain ⟨h1, rfl⟩ := writeEditLines_iff.mp hr
        refine ⟨fun y hy => ?_, rfl⟩
        rcases List.mem_cons.mp hy with rfl | hy
        · exact h
        · exact h1 y hy
      · rintro ⟨h1, rfl⟩
        rw [writeEditLines_iff.mpr ⟨fun y hy => h1 y (List.mem_cons_of_mem _ hy), rfl⟩]
        rfl
    · rw [if_pos h]
      constructor
      · rintro ⟨⟩
      · rintro ⟨h1, -⟩
        exact absurd (h1 (level, l) (List.mem_cons_self ..)) h

theorem written_edited : ∀ {ys : List (Int × Line)}, (∀ y ∈ ys, pyStrip y.2.content = y.2.content) →
    (∀ y ∈ ys, OnOneLine y.2.content ∧ -9999 ≤ y.1 ∧ y.1 ≤ 99999) →
    EditedFile (ys.flatMap fun y => editLine y.1 y.2) (ys.map fun y => y.2.content)
  | [], _, _ => .nil
  | y :: ys, h1, h2 => by
    obtain ⟨a, b, c⟩ := h2 y (List.mem_cons_self ..)
    exact editLine_edited b c (h1 y (List.mem_cons_self ..)) a
      (written_edited (fun z hz => h1 z (List.mem_cons_of_mem _ hz)) fun z hz => h2 z (List.mem_cons_of_mem _ hz))

theorem markLines_spec : ∀ (ys : List (Int × Line)) (i : Nat) (fn lz a b : Option Nat), markLines i fn lz ys = (a, b) →
    (∀ x, fn = some x → a = some x) ∧
    (fn = none → (a = none ∧ ∀ y ∈ ys, 0 ≤ y.1) ∨
      ∃ j y, a = some (i + j) ∧ ys[j]? = some y ∧ y.1 < 0 ∧ ∀ j' z, j' < j → ys[j']? = some z → 0 ≤ z.1) ∧
    ((b = lz ∧ ∀ y ∈ ys, y.1 ≠ 0) ∨
      ∃ j y, b = some (i + j) ∧ ys[j]? = some y ∧ y.1 = 0 ∧ ∀ j' z, j < j' → ys[j']? = some z → z.1 ≠ 0)
  | [], i, fn, lz, a, b, h => by
    unfold markLines at h
    obtain ⟨rfl, rfl⟩ := Prod.mk.inj h
    exact ⟨fun x hx => hx, fun hn => .inl ⟨hn, by simp⟩, .inl ⟨rfl, by simp⟩⟩
  | (level, l) :: ys, i, fn, lz, a, b, h => by
    unfold markLines at h
    obtain ⟨h1, h2, h3⟩ := markLines_spec ys _ _ _ a b h
    refine ⟨fun x hx => h1 x ?_, fun hn => ?_, ?_⟩
    · rw [if_neg (by simp [hx])]; exact hx
    · subst hn
      by_cases hl : level < 0
      · right
        refine ⟨0, (level, l), h1 i (by simp [hl]), rfl, hl, fun j' z hj => by omega⟩
      · rcases h2 (by simp [hl]) with ⟨e1, e2⟩ | ⟨j, y, e1, e2, e3, e4⟩
        · left
          refine ⟨e1, fun y hy => ?_⟩
          rcases List.mem_cons.mp hy with rfl | hy
          · simpa using hl
          · exact e2 y hy
        · right
          refine ⟨j + 1, y, by rw [e1]; congr 1; omega, e2, e3, fun j' z hj hz => ?_⟩
          cases j' with
          | zero => cases hz; simpa using hl
          | succ j' => exact e4 j' z (by omega) hz
    · rcases h3 with ⟨e1, e2⟩ | ⟨j, y, e1, e2, e3, e4⟩
      · by_cases hl : level = 0
        · right
          refine ⟨0, (level, l), by rw [e1, if_pos hl]; rfl, rfl, hl, fun j' z hj hz => ?_⟩
          cases j' with
          | zero => omega
          | succ j' => exact e2 z (List.mem_of_getElem? hz)
        · left
          rw [if_neg hl] at e1
          refine ⟨e1, fun y hy => ?_⟩
          rcases List.mem_cons.mp hy with rfl | hy
          · exact hl
          · exact e2 y hy
      · right
        refine ⟨j + 1, y, by rw [e1]; congr 1; omega, e2, e3, fun j' z hj hz => ?_⟩
        cases j' with
        | zero => omega
        | succ j' => exact e4 j' z (by omega) hz

/-! ## Which replacements are extracted -/

theorem foundAt_iff {text lines : List Str} {i : Nat} : FoundAt text lines i ↔
    i ∈ (List.range (text.length - lines.length)).filter fun i : Nat => pySlice text i (i + lines.length) = lines := by
  rw [List.mem_filter, List.mem_range]
  constructor
  · rintro ⟨a, b, rfl, rfl, hb⟩
    have := List.length_pos_iff.mpr hb
    refine ⟨by simp; omega, ?_⟩
    rw [pySlice_at]
    simp
  · rintro ⟨h1, h2⟩
    have h2 := of_decide_eq_true h2
    have e : pySlice text (i : Int) ((i : Int) + lines.length) = (text.drop i).take lines.length := by
      unfold pySlice pyBound
      rw [if_neg (by omega), if_neg (by omega), show ((i : Int) + lines.length).toNat = i + lines.length by omega,
        Int.toNat_natCast, Nat.min_eq_left (by omega), Nat.min_eq_left (by omega), List.drop_take]
      congr 1
      omega
    rw [e] at h2
    refine ⟨text.take i, text.drop (i + lines.length), ?_, by rw [List.length_take]; omega, ?_⟩
    · conv => rhs; rw [← h2]
      rw [← List.drop_drop, List.append_assoc, h2]
      conv => rhs; arg 2; arg 1; rw [← h2]
      rw [List.take_append_drop, List.take_append_drop]
    · intro h0
      have := congrArg List.length h0
      rw [List.length_drop, List.length_nil] at this
      omega

theorem countSublists_one {text lines : List Str} : countSublists text lines = 1 ↔ FoundOnce text lines := by
  have hn : ((List.range (text.length - lines.length)).filter fun i : Nat => pySlice text i (i + lines.length) = lines).Nodup :=
    List.nodup_range.sublist List.filter_sublist
  unfold countSublists FoundOnce
  simp only [foundAt_iff]
  revert hn
  generalize (List.range (text.length - lines.length)).filter (fun i : Nat => pySlice text i (i + lines.length) = lines) = l
  intro hn
  constructor
  · intro h
    obtain ⟨i, rfl⟩ := List.length_eq_one_iff.mp h
    exact ⟨i, by simp, by simp⟩
  · rintro ⟨i, hi, hu⟩
    match l, hn, hi, hu with
    | [_], _, _, _ => rfl
    | a :: b :: rest, hn, _, hu =>
      have h1 := hu a (by simp)
      have h2 := hu b (by simp)
      rw [h1, h2] at hn
      simp at hn

theorem pySlice_before {new : List Str} {k : Nat} (hk : k ≤ new.length) (b : Nat) :
    pySlice new ((k : Int) - b) k = linesBefore new k b := by
  unfold pySlice linesBefore
  have h1 : pyBound new.length (k : Int) = k := by
    unfold pyBound
    rw [if_neg (by omega)]
    omega
  rw [h1]
  congr 1
  unfold pyBound
  by_cases h : b ≤ k
  · rw [if_pos h, if_neg (by omega)]
    omega
  · rw [if_neg h, if_pos (by omega)]
    omega

theorem contextLoop_iff {old new : List Str} {k : Nat} {o n : Str} {r : Replacement} (hk : k ≤ new.length) : ∀ {m a : Nat},
    contextLoop old new k o n (List.range' a m) = .ok r ↔ ∃ b, a ≤ b ∧ b < a + m ∧
      FoundOnce (halfEdited old new k) (linesBefore new k b ++ [o]) ∧
      (∀ c, a ≤ c → c < b → ¬ FoundOnce (halfEdited old new k) (linesBefore new k c ++ [o])) ∧
      r = ⟨o, n, some (linesBefore new k b)⟩
  | 0, a => by
    constructor
    · intro h; cases h
    · rintro ⟨b, h1, h2, -⟩; omega
  | m + 1, a => by
    rw [List.range'_succ]
    unfold contextLoop
    simp only [pySlice_before hk]
    change (if countSublists (halfEdited old new k) _ = 1 then _ else _) = _ ↔ _
    by_cases hc : FoundOnce (halfEdited old new k) (linesBefore new k a ++ [o])
    · rw [if_pos (countSublists_one.mpr hc)]
      constructor
      · intro h
        cases h
        exact ⟨a, Nat.le_refl _, by omega, hc, fun c h1 h2 => by omega, rfl⟩
      · rintro ⟨b, h1, h2, h3, h4, rfl⟩
        rcases Nat.lt_or_ge a b with h | h
        · exact absurd hc (h4 a (Nat.le_refl _) h)
        · rw [show b = a by omega]
    · rw [if_neg (fun h => hc (countSublists_one.mp h)), contextLoop_iff hk]
      constructor
      · rintro ⟨b, h1, h2, h3, h4, rfl⟩
        refine ⟨b, by omega, by omega, h3, fun c hc1 hc2 => ?_, rfl⟩
        rcases Nat.lt_or_ge a c with h | h
        · exact h4 c (by omega) hc2
        · rw [show c = a by omega]; exact hc
      · rintro ⟨b, h1, h2, h3, h4, rfl⟩
        rcases Nat.lt_or_ge a b with h | h
        · exact ⟨b, by omega, by omega, h3, fun c hc1 hc2 => h4 c (by omega) hc2, rfl⟩
        · rw [show b = a by omega] at h3; exact absurd h3 hc

theorem chosen_iff {old new : List Str} {k : Nat} {o n : Str} {r : Replacement} (hk : k ≤ new.length) :
    (if old.count o = 1 then .ok ⟨o, n, none⟩ else contextLoop old new k o n contextLengths) = Except.ok r ↔
      Chosen old new ((o, n), k) r := by
  have hl : contextLengths = List.range' 1 9 := by decide
  by_cases hc : old.count o = 1
  · rw [if_pos hc]
    constructor
    · intro h; cases h; exact .alone hc
    · intro h
      cases h with
      | alone => rfl
      | context h => exact absurd hc h
  · rw [if_neg hc, hl, contextLoop_iff hk]
    constructor
    · rintro ⟨b, h1, h2, h3, h4, rfl⟩
      exact .context hc h1 (by omega) h3 h4
    · intro h
      cases h with
      | alone h => exact absurd h hc
      | context _ h1 h2 h3 h4 => exact ⟨_, h1, by omega, h3, h4, rfl⟩

theorem extractLoop_cons {old new : List Str} {k : Nat} {o n : Str} {ps : List (Str × Str)} (hs : o ≠ n) :
    extractLoop old new k ((o, n) :: ps) =
      (if old.count o = 1 then .ok ⟨o, n, none⟩ else contextLoop old new k o n contextLengths : Res Replacement) >>= fun r =>
        extractLoop old new (k + 1) ps >>= fun rs => .ok (r :: rs) := by
  conv => lhs; unfold extractLoop
  rw [if_neg hs]
  by_cases hc : old.count o = 1
  · simp only [if_pos hc]
  · simp only [if_neg hc]

theorem extractLoop_iff {old new : List Str} : ∀ {ps : List (Str × Str)} {k : Nat} {rs : List Replacement},
    k + ps.length ≤ new.length →
    (extractLoop old new k ps = .ok rs ↔ Both (Chosen old new) ((ps.zipIdx k).filter fun p => p.1.1 ≠ p.1.2) rs)
  | [], k, rs, _ => by
    constructor
    · intro h; cases h; exact .nil
    · intro h; cases h; rfl
  | (o, n) :: ps, k, rs, hk => by
    rw [List.length_cons] at hk
    rw [List.zipIdx_cons]
    by_cases hs : o = n
    · unfold extractLoop
      rw [if_pos hs, extractLoop_iff (by omega), List.filter_cons_of_neg (by simpa using hs)]
    · rw [extractLoop_cons hs, List.filter_cons_of_pos (by simpa using hs)]
      constructor
      · intro h
        obtain ⟨r, hr, h⟩ := resBind_ok h
        obtain ⟨rs', hrs, h⟩ := resBind_ok h
        cases h
        exact .cons ((chosen_iff (by omega)).mp hr) ((extractLoop_iff (by omega)).mp hrs)
      · intro h
        cases h with
        | cons h1 h2 =>
          rw [(chosen_iff (by omega)).mpr h1, (extractLoop_iff (by omega)).mpr h2]
          rfl

end Verif
