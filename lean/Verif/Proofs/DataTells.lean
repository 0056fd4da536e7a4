import Verif.Proofs.Data
import Verif.Proofs.Semantics

/-! # Different acts have different data -/

namespace Verif

open Spec

/-- Looking up what there may be. -/
theorem get_entry (k k' : Str) (o : Option Val) (rest : List (Str × Val)) :
    Dict.get? (entry k o ++ rest) k' = if k = k' then o.or (Dict.get? rest k') else Dict.get? rest k' := by
  cases o with
  | none => simp [entry]
  | some v => by_cases h : k = k' <;> simp [entry, Dict.get?, h]

/-- Looking up in nothing. -/
theorem get_nil (k : Str) : Dict.get? ([] : List (Str × Val)) k = none := rfl

/-- Looking up the first. -/
theorem get_cons (k k' : Str) (v : Val) (rest : List (Str × Val)) :
    Dict.get? ((k, v) :: rest) k' = if k = k' then some v else Dict.get? rest k' := by
  by_cases h : k = k' <;> simp [Dict.get?, h]

/-- Looking up in the only entry. -/
theorem get_entry_only (k k' : Str) (o : Option Val) : Dict.get? (entry k o) k' = if k = k' then o else none := by
  have := get_entry k k' o []
  simpa [get_nil] using this

/-- A sign is told by its entry. -/
theorem sign_inj {k : Str} {a b : Bool} (h : sign k a = sign k b) : a = b := by
  cases a <;> cases b <;> simp_all [sign]

/-- Strings that there may be. -/
theorem str_map {a b : Option Str} (h : a.map Val.str = b.map Val.str) : a = b := (Option.map_inj_right fun _ _ => Val.str.inj).1 h

theorem identData_inj {a b : Ident} (h : identData a = identData b) : a = b := by
  cases a <;> cases b <;> simp_all [identData]

theorem identData_map {a b : Option Ident} (h : a.map identData = b.map identData) : a = b :=
  (Option.map_inj_right fun _ _ => identData_inj).1 h

theorem referenceItems_inj {a b : Reference} (h : referenceItems a = referenceItems b) : a = b := by
  have g : ∀ k, Dict.get? (referenceItems a) k = Dict.get? (referenceItems b) k := fun k => by rw [h]
  have h1 := g (py"act")
  have h2 := g (py"article")
  have h3 := g (py"paragraph")
  have h4 := g (py"point")
  have h5 := g (py"subpoint")
  simp [referenceItems, get_entry, get_entry_only] at h1 h2 h3 h4 h5
  obtain ⟨a1, a2, a3, a4, a5⟩ := a
  simp at *
  simp [str_map h1, identData_map h2, identData_map h3, identData_map h4, identData_map h5]

theorem partData_inj {a b : Part} (h : partData a = partData b) : a = b := by
  simp [partData] at h
  obtain ⟨h1, h2, h3⟩ := h
  have := sign_inj h3
  cases a
  cases b
  simp_all

theorem lineData_inj {a b : Line} (h : lineData a = lineData b) : a = b := by
  simp [lineData, List.map_inj_right fun _ _ => partData_inj] at h
  obtain ⟨h1, h2⟩ := h
  obtain ⟨a1, a2⟩ := a
  obtain ⟨b1, b2⟩ := b
  simp only at h1 h2
  simp only [Line.mk.injEq, h1, true_and]
  split at h2 <;> split at h2 <;> simp_all

theorem dateItems_inj {a b : Date} (h : dateItems a = dateItems b) : a = b := by
  simp [dateItems] at h
  cases a
  simp_all

theorem comboName_inj {a b : ComboType} (h : comboName a = comboName b) : a = b := by
  revert h
  cases a <;> cases b <;> simp [comboName]

theorem structuralItems_inj {a b : StructuralReference} (h : structuralItems a = structuralItems b) : a = b := by
  have g : ∀ k, Dict.get? (structuralItems a) k = Dict.get? (structuralItems b) k := fun k => by rw [h]
  have h1 := g (py"act")
  have h2 := g (py"book")
  have h3 := g (py"part")
  have h4 := g (py"title")
  have h5 := g (py"chapter")
  have h6 := g (py"subtitle")
  have h7 := g (py"special")
  simp [structuralItems, get_entry, get_entry_only] at h1 h2 h3 h4 h5 h6 h7
  rw [Option.map_inj_right (fun x y h => by
    simp at h
    have := comboName_inj h.1
    cases x
    cases y
    simp_all)] at h7
  obtain ⟨a1, a2, a3, a4, a5, a6, a7⟩ := a
  simp at *
  simp [str_map h1, str_map h2, str_map h3, str_map h4, str_map h5, str_map h6, h7]

/-- Names at the end. -/
theorem named_inj {as bs : Items} {m n : Str} (h : as ++ named m = bs ++ named n) : as = bs ∧ m = n := by
  have := List.append_inj' h rfl
  simpa [named] using this

theorem positionData_inj {a b : Position} (h : positionData a = positionData b) : a = b := by
  cases a <;> cases b <;> rw [positionData, positionData, Val.dict.injEq] at h <;> obtain ⟨h, hn⟩ := named_inj h
  · rw [referenceItems_inj h]
  · cases hn
  · cases hn
  · rw [structuralItems_inj h]

/-- The default is told by there being no entry. -/
theorem unless_inj {k : Str} {d m n : Int} (h : (if m = d then [] else [(k, Val.int m)]) = if n = d then [] else [(k, Val.int n)]) : m = n := by
  split at h <;> split at h <;> simp_all

theorem timeData_inj {a b : EnforcementTime} (h : timeData a = timeData b) : a = b := by
  cases a <;> cases b <;> rw [timeData, timeData, Val.dict.injEq] at h <;> obtain ⟨h, hn⟩ := named_inj h <;> try cases hn
  · rw [dateItems_inj h]
  · rw [unless_inj h]
  · simp only [List.singleton_append, List.cons.injEq, Prod.mk.injEq, true_and, Val.int.injEq] at h
    rw [h.1, unless_inj h.2]
  · simp at h
    rw [h]

theorem semanticData_inj {a b : SemanticData} (h : semanticData a = semanticData b) : a = b := by
  cases a <;> cases b <;> simp only [semanticData, Val.dict.injEq] at h <;> obtain ⟨h, hn⟩ := named_inj h <;> try cases hn
  · simp only [List.singleton_append, List.cons.injEq, Prod.mk.injEq, true_and] at h
    rw [positionData_inj h.1, sign_inj h.2]
  · rename_i p d r p' d' r' _
    simp at h
    obtain ⟨h1, h2, h3⟩ := h
    have e3 : r = r' := by
      have := congrArg (fun i => Dict.get? i (py"repeal_date")) h3
      simp [get_entry_only] at this
      exact (Option.map_inj_right fun _ _ h => dateItems_inj (by simpa using h)).1 this
    have e1 : p = p' := by
      cases p <;> cases p' <;> simp at h1 ⊢
      exact referenceItems_inj h1
    rw [e1, timeData_inj h2, e3]
  · simp at h
    rw [referenceItems_inj h.1, h.2.1, h.2.2]
  · simp at h
    rw [referenceItems_inj h.1, h.2.1, h.2.2]
  · rename_i p t p' t'
    simp only [List.singleton_append, List.cons.injEq, Prod.mk.injEq, true_and] at h
    have := congrArg (fun i => Dict.get? i (py"text")) h.2
    simp [get_entry_only] at this
    rw [positionData_inj h.1, str_map this]

theorem abbreviationData_inj {a b : ActIdAbbreviation} (h : abbreviationData a = abbreviationData b) : a = b := by
  simp [abbreviationData] at h
  cases a
  simp_all

theorem outgoingData_inj {a b : OutgoingReference} (h : outgoingData a = outgoingData b) : a = b := by
  simp [outgoingData] at h
  have := referenceItems_inj h.2.2
  cases a
  cases b
  simp_all

/-- Lists that there may be. -/
theorem list_map {α : Type} {f : α → Val} (hf : ∀ a b, f a = f b → a = b) {a b : Option (List α)}
    (h : a.map (fun as => Val.list (as.map f)) = b.map fun as => Val.list (as.map f)) : a = b :=
  (Option.map_inj_right fun _ _ h => (List.map_inj_right hf).1 (by simpa using h)).1 h

/-- Elements one by one. -/
theorem map_inj_mem {α β : Type} {f : α → β} : ∀ {as bs : List α}, (∀ a ∈ as, ∀ b ∈ bs, f a = f b → a = b) → as.map f = bs.map f → as = bs
  | [], [], _, _ => rfl
  | [], _ :: _, _, h => by simp at h
  | _ :: _, [], _, h => by simp at h
  | a :: as, b :: bs, hf, h => by
    simp only [List.map_cons, List.cons.injEq] at h
    rw [hf a (by simp) b (by simp) h.1, map_inj_mem (fun x hx y hy => hf x (by simp [hx]) y (by simp [hy])) h.2]

/-- A part of an article is told by its kind and its data. -/
theorem saeItems_inj {k k' : SaeKind} {d d' : SaeData} {cs cs' : List Node} (h : elementItems (.sae k d cs) = elementItems (.sae k' d' cs')) :
    d = d' ∧ elementsData cs = elementsData cs' := by
  have g : ∀ key, Dict.get? (elementItems (.sae k d cs)) key = Dict.get? (elementItems (.sae k' d' cs')) key := fun key => by rw [h]
  have h1 := g (py"identifier")
  have h2 := g (py"text")
  have h3 := g (py"intro")
  have h4 := g (py"children")
  have h5 := g (py"wrap_up")
  have h6 := g (py"act_id_abbreviations")
  have h7 := g (py"outgoing_references")
  have h8 := g (py"semantic_data")
  simp [elementItems, get_entry, get_entry_only] at h1 h2 h3 h4 h5 h6 h7 h8
  refine ⟨?_, ?_⟩
  · obtain ⟨a1, a2, a3, a4, a5, a6, a7⟩ := d
    simp at *
    simp [str_map h1, str_map h2, str_map h3, str_map h5, list_map (fun _ _ => abbreviationData_inj) h6,
      list_map (fun _ _ => outgoingData_inj) h7, list_map (fun _ _ => semanticData_inj) h8]
  · by_cases e : cs = [] <;> by_cases e' : cs' = [] <;> simp_all

/-- The name of a kind is its own. -/
theorem elementName_sae {k : SaeKind} {d : SaeData} {cs : List Node} {m : Node} (h : elementName (.sae k d cs) = elementName m) :
    ∃ d' cs', m = .sae k d' cs' := by
  cases m with
  | sae k' d' cs' => exact ⟨d', cs', by revert h; cases k <;> cases k' <;> simp [elementName]⟩
  | article => exfalso; revert h; cases k <;> simp [elementName]
  | quoted => exfalso; revert h; cases k <;> simp [elementName]
  | structural e =>
    exfalso
    obtain ⟨k', i, t, s⟩ := e
    revert h
    cases k <;> cases k' <;> simp [elementName]

/-- The name of articles is their own. -/
theorem elementName_article {i : Str} {t : Option Str} {cs : List Node} {m : Node} (h : elementName (.article i t cs) = elementName m) :
    ∃ i' t' cs', m = .article i' t' cs' := by
  cases m with
  | sae k' d' cs' => exfalso; revert h; cases k' <;> simp [elementName]
  | article i' t' cs' => exact ⟨i', t', cs', rfl⟩
  | quoted => exfalso; revert h; simp [elementName]
  | structural e =>
    exfalso
    obtain ⟨k', i, t, s⟩ := e
    revert h
    cases k' <;> simp [elementName]

/-- The name of quotations is their own. -/
theorem elementName_quoted {ls : List Line} {m : Node} (h : elementName (.quoted ls) = elementName m) : ∃ ls', m = .quoted ls' := by
  cases m with
  | sae k' d' cs' => exfalso; revert h; cases k' <;> simp [elementName]
  | article i' t' cs' => exfalso; revert h; simp [elementName]
  | quoted ls' => exact ⟨ls', rfl⟩
  | structural e =>
    exfalso
    obtain ⟨k', i, t, s⟩ := e
    revert h
    cases k' <;> simp [elementName]

/-- The names of structural elements are their own. -/
theorem elementName_structural {e : StructuralElement} {m : Node} (h : elementName (.structural e) = elementName m) :
    ∃ e', m = .structural e' ∧ e.kind = e'.kind := by
  obtain ⟨k, i, t, s⟩ := e
  cases m with
  | sae k' d' cs' => exfalso; revert h; cases k <;> cases k' <;> simp [elementName]
  | article i' t' cs' => exfalso; revert h; cases k <;> simp [elementName]
  | quoted ls' => exfalso; revert h; cases k <;> simp [elementName]
  | structural e =>
    obtain ⟨k', i', t', s'⟩ := e
    refine ⟨_, rfl, ?_⟩
    revert h
    cases k <;> cases k' <;> simp [elementName]

theorem onlyParts_child {n c : Node} (h : OnlyParts n) (hc : c ∈ n.children) : OnlyParts c := fun e he => h e (.deeper hc he)

/-- An element is told by its data and the name of its class. -/
theorem element_inj {n m : Node} (hn : Built n) (hm : Built m) (on : OnlyParts n) (om : OnlyParts m) (h : elementItems n = elementItems m)
    (hname : elementName n = elementName m) : n = m := by
  induction hn generalizing m with
  | @sae k d n children parts made ih =>
    obtain rfl := (mkSae_ok made).1
    obtain ⟨d', cs', rfl⟩ := elementName_sae hname
    obtain ⟨rfl, hcs⟩ := saeItems_inj h
    have : children.getD [] = cs' := by
      rw [elementsData_eq, elementsData_eq] at hcs
      refine map_inj_mem (fun a ha b hb hab => ?_) hcs
      obtain ⟨h1, h2⟩ := named_inj (by simpa using hab)
      cases children with
      | none => simp at ha
      | some cs => exact ih cs rfl a ha (built_inside (.deeper hb (.self _)) hm) (onlyParts_child on ha) (onlyParts_child om hb) h1 h2
    rw [this]
  | @article i t n children parts typed made ih =>
    obtain rfl : n = .article i t children := mkArticle_ok made
    obtain ⟨i', t', cs', rfl⟩ := elementName_article hname
    simp only [elementItems, List.cons_append, List.nil_append, List.cons.injEq, Prod.mk.injEq, true_and, Val.str.injEq, Val.list.injEq] at h
    obtain ⟨rfl, hcs, ht⟩ := h
    have := congrArg (fun i => Dict.get? i (py"title")) ht
    simp [get_entry_only] at this
    obtain rfl := str_map this
    have : children = cs' := by
      rw [paragraphsData_eq, paragraphsData_eq] at hcs
      refine map_inj_mem (fun a ha b hb hab => ?_) hcs
      have ta := typed a ha
      have tb := (built_article hm).2.1 b hb
      refine ih a ha (built_inside (.deeper hb (.self _)) hm) (onlyParts_child on ha) (onlyParts_child om hb) (by simpa using hab) ?_
      cases a <;> cases b <;> simp [Node.type] at ta tb
      subst ta tb
      rfl
    rw [this]
  | quoted ls =>
    obtain ⟨ls', rfl⟩ := elementName_quoted hname
    simp [elementItems, List.map_inj_right fun _ _ => lineData_inj] at h
    rw [h]
  | structural e =>
    obtain ⟨e', rfl, hk⟩ := elementName_structural hname
    have se := on e (.self _)
    have se' := om e' (.self _)
    obtain ⟨k, i, t, s⟩ := e
    obtain ⟨k', i', t', s'⟩ := e'
    simp only [elementItems, List.cons_append, List.nil_append, List.cons.injEq, Prod.mk.injEq, true_and, Val.str.injEq] at h hk
    obtain ⟨rfl, rfl, h⟩ := h
    have := sign_inj h
    subst hk
    simp only [Node.structural.injEq, StructuralElement.mk.injEq, true_and]
    by_cases hp : k = .part
    · simpa [hp] using this
    · simp only at se se'
      cases s <;> cases s' <;> simp_all

end Verif
