import Verif.Proofs.Built
import Verif.Proofs.Headings

/-! # What is made can be referred to -/

namespace Verif

open Spec

/-- What is below an object, without amendments: siblings can be told apart, and identifiers have their form. -/
def Fit (n : Node) : Prop := ∀ m, Own m n → DistinctSiblings m.children ∧ Identified m

theorem own_inside {m n : Node} (h : Own m n) : Inside m n := by
  induction h with
  | self => exact .self _
  | deeper hc _ _ ih => exact .deeper hc ih

theorem distinct_of_ids {cs : List Node} {ids : List Str} (h : cs.map Node.identifier = ids.map some) (hn : ids.Nodup) :
    DistinctSiblings cs := by
  unfold DistinctSiblings
  have : cs.filterMap Node.identifier = ids := by
    have h' := congrArg (List.filterMap id) h
    rw [List.filterMap_map, List.filterMap_map] at h'
    simpa [Function.comp_def] using h'
  rw [this]
  exact hn

theorem distinct_of_numbered {m : Node} (h : ChildrenNumbered m) : DistinctSiblings m.children := by
  have single : ∀ p, DistinctSiblings [p] := by
    intro p
    unfold DistinctSiblings
    cases hp : p.identifier <;> simp [hp]
  cases m with
  | sae k d cs =>
    rcases h with h | ⟨kind, first, -, ⟨-, ids, hi, -, -, hn⟩, -⟩
    · unfold DistinctSiblings
      have : cs.filterMap Node.identifier = [] := by
        rw [List.filterMap_eq_nil_iff]
        intro c hc
        have := h c hc
        cases c <;> first | rfl | cases this
      show (cs.filterMap Node.identifier).Nodup
      rw [this]
      exact .nil
    · exact distinct_of_ids hi hn
  | article i t cs =>
    rcases h with ⟨p, rfl⟩ | ⟨-, ids, hi, -, -, hn⟩
    · exact single p
    · exact distinct_of_ids hi hn
  | quoted => exact .nil
  | structural => exact .nil

theorem article_identified {lines : List Line} {i : Str} {t : Option Str} {ps : List Node} (h : ArticleFacts lines i t ps) :
    ∀ m, Inside m (.article i t ps) → Identified m := by
  obtain ⟨first, rest, number, cut, title, blocks, rfl, _, _, _, _, _, _, hps, _, _, _⟩ := h.parts
  intro m hm
  cases hm with
  | self =>
    obtain ⟨content, hc⟩ := h.read
    exact (matchArticle_iff.mp hc).1
  | deeper hc hm => exact parsedL_identified hps _ hc m hm

theorem parseAct_fit {identifier subject : Str} {date : Date} {lines : List Line} {act : Act}
    (h : parseAct identifier date subject lines = .ok act) : ∀ c ∈ act.children, Fit c := by
  obtain ⟨pre, blocks, _, _, _, _, h5⟩ := parseAct_spec h
  intro c hc m hm
  obtain ⟨b, _, q, hq⟩ := h5.mem_right hc
  cases q with
  | article =>
    obtain ⟨i, t, ps, rfl, facts⟩ := parseArticle_spec hq
    refine ⟨distinct_of_numbered (article_numbered facts m (own_inside hm)), ?_⟩
    exact article_identified facts m (own_inside hm)
  | struct k =>
    obtain ⟨e', rfl, _, _⟩ := struct_reads hq
    cases own_inside hm with
    | self => exact ⟨.nil, trivial⟩
    | deeper hc => cases hc

theorem blockParagraph_fit {analyze : Analyzer} {n m : Node} (hn : Fit n) (h : blockParagraph analyze n = .ok m) :
    Fit m ∧ m.identifier = n.identifier := by
  rcases blockParagraph_cases h with rfl | ⟨k, d, lines, b, position, intro, w, intro', rfl, hb, hm⟩
  · exact ⟨hn, rfl⟩
  · rw [(mkSae_ok hm).1]
    refine ⟨?_, rfl⟩
    intro x hx
    cases hx with
    | self =>
      refine ⟨?_, (hn _ (.self _)).2⟩
      show (List.filterMap Node.identifier [b]).Nodup
      cases hp : b.identifier <;> simp [hp]
    | deeper hc hk hx =>
      obtain rfl := List.mem_singleton.1 hc
      obtain ⟨cs, -, rfl, -⟩ := parseBlockAmendment_ok hb
      exact absurd rfl hk

theorem blockArticle_fit {analyze : Analyzer} {n m : Node} (hb : Built n) (hn : Fit n) (h : blockArticle analyze n = .ok m) : Fit m := by
  cases n with
  | article i t ps =>
    rw [blockArticle] at h
    obtain ⟨ps', hp, h⟩ := resBind_ok h
    rw [mkArticle_ok h]
    have key : ∀ {ps ps' : List Node}, mapRes (blockParagraph analyze) ps = .ok ps' → (∀ p ∈ ps, Fit p) →
        ps'.map Node.identifier = ps.map Node.identifier ∧ ∀ p ∈ ps', Fit p := by
      intro ps
      induction ps with
      | nil => intro ps' h _; cases h; simp
      | cons p ps ih =>
        intro ps' h hf
        rw [mapRes] at h
        obtain ⟨q, hq, h⟩ := resBind_ok h
        obtain ⟨qs, hqs, h⟩ := resBind_ok h
        cases h
        obtain ⟨i1, i2⟩ := ih hqs fun x hx => hf x (by simp [hx])
        obtain ⟨j1, j2⟩ := blockParagraph_fit (hf p (by simp)) hq
        refine ⟨by rw [List.map_cons, List.map_cons, i1, j2], ?_⟩
        intro x hx
        rcases List.mem_cons.1 hx with rfl | hx
        · exact j1
        · exact i2 x hx
    have hkids : ∀ p ∈ ps, Fit p := by
      intro p hp x hx
      refine hn x (.deeper (n := .article i t ps) hp ?_ hx)
      rw [(built_article hb).2.1 p hp]
      simp
    obtain ⟨i1, i2⟩ := key hp hkids
    intro x hx
    cases hx with
    | self =>
      refine ⟨?_, (hn _ (.self _)).2⟩
      have := (hn _ (.self _)).1
      unfold DistinctSiblings at this ⊢
      have e : ∀ l : List Node, l.filterMap Node.identifier = (l.map Node.identifier).filterMap id := by
        intro l; rw [List.filterMap_map]; rfl
      show (ps'.filterMap Node.identifier).Nodup
      rw [e, i1, ← e]
      exact this
    | deeper hc hk hx => exact i2 _ hc x hx
  | _ => cases h; exact hn

/-! ## Semantic data -/

theorem stripL_map (cs : List Node) : stripL cs = cs.map strip := by
  induction cs with
  | nil => rfl
  | cons c cs ih => rw [stripL, ih, List.map_cons]

theorem strip_identifier (n : Node) : (strip n).identifier = n.identifier := by
  cases n with
  | sae k d cs => rw [strip]; split <;> rfl
  | _ => rfl

/-- What there is to know about the identifiers in an object, semantic data left out. -/
theorem strip_siblings (cs : List Node) : (cs.map strip).filterMap Node.identifier = cs.filterMap Node.identifier := by
  rw [List.filterMap_map]
  congr 1
  funext c
  exact strip_identifier c

theorem strip_one {n : Node} :
    (DistinctSiblings (strip n).children ↔ DistinctSiblings n.children) ∧ (Identified (strip n) ↔ Identified n) := by
  cases n with
  | sae k d cs =>
    rw [strip]
    split
    · exact ⟨.rfl, .rfl⟩
    · refine ⟨?_, .rfl⟩
      show (List.filterMap Node.identifier (stripL cs)).Nodup ↔ (List.filterMap Node.identifier cs).Nodup
      rw [stripL_map, strip_siblings]
  | _ => exact ⟨.rfl, .rfl⟩

theorem mem_of_stripL {cs cs' : List Node} (h : stripL cs = stripL cs') {c : Node} (hc : c ∈ cs') :
    ∃ b ∈ cs, strip b = strip c := by
  rw [stripL_map, stripL_map] at h
  have : strip c ∈ cs.map strip := by rw [h]; exact List.mem_map.2 ⟨c, hc, rfl⟩
  exact List.mem_map.1 this

theorem strip_plain {n n' : Node} (h : strip n = strip n') (hs : n'.isSae = false) : n = n' := by
  have ht := congrArg Node.type h
  rw [strip_type, strip_type] at ht
  cases n' with
  | sae => cases hs
  | _ => cases n <;> first | exact h | cases ht

theorem fit_of_strip : ∀ {n' n : Node}, strip n = strip n' → n'.type ≠ .sae .blockAmendmentContainer → Fit n → Fit n' := by
  intro n'
  induction n' using Node.ind with
  | sae k d cs ih =>
    intro n h ht hn
    have ht' : n.type ≠ .sae .blockAmendmentContainer := by rw [← strip_type, h, strip_type]; exact ht
    intro m hm
    cases hm with
    | self =>
      have := hn _ (.self _)
      rw [← strip_one.1, ← strip_one.2, h, strip_one.1, strip_one.2] at this
      exact this
    | deeper hc hk hm =>
      cases n with
      | sae k' d' cs' =>
        have e : stripL cs' = stripL cs := by
          rw [strip, strip, if_neg (by rintro rfl; exact ht' rfl), if_neg (by rintro rfl; exact ht rfl)] at h
          exact (Node.sae.inj h).2.2
        obtain ⟨b, hb, hbc⟩ := mem_of_stripL e hc
        refine ih _ hc hbc hk (fun x hx => hn x (.deeper (n := .sae k' d' cs') hb ?_ hx)) _ hm
        rw [← strip_type, hbc, strip_type]
        exact hk
      | _ =>
        rw [strip, strip] at h
        all_goals first | (split at h <;> cases h) | skip
  | article i t cs =>
    intro n h ht hn
    exact strip_plain h rfl ▸ hn
  | quoted =>
    intro n h ht hn
    exact strip_plain h rfl ▸ hn
  | structural =>
    intro n h ht hn
    exact strip_plain h rfl ▸ hn

theorem addSemantics_fit {analyze : Analyzer} {a a' : Act} (hb : ∀ c ∈ a.children, Built c) (hb' : ∀ c ∈ a'.children, Built c)
    (h : addSemantics analyze a = .ok a') (hf : ∀ c ∈ a.children, Fit c) : ∀ c ∈ a'.children, Fit c := by
  have hs := congrArg Act.children (addSemantics_ok h).1
  intro c' hc'
  have : stripArticle c' ∈ (stripAct a).children := by
    rw [← hs]
    exact List.mem_map.2 ⟨c', hc', rfl⟩
  obtain ⟨c, hc, he⟩ := List.mem_map.1 this
  cases c' with
  | article i t ps' =>
    cases c with
    | article j u ps =>
      obtain ⟨rfl, rfl, e⟩ := Node.article.inj he
      have typed : ∀ p ∈ ps', p.type ≠ .sae .blockAmendmentContainer := by
        intro p hp
        rw [(built_article (hb' _ hc')).2.1 p hp]
        simp
      intro m hm
      cases hm with
      | self =>
        obtain ⟨f1, f2⟩ := hf _ hc _ (.self _)
        refine ⟨?_, f2⟩
        show (ps'.filterMap Node.identifier).Nodup
        rw [← strip_siblings, ← stripL_map, ← e, stripL_map, strip_siblings]
        exact f1
      | deeper hp hk hm =>
        obtain ⟨b, hbm, hbc⟩ := mem_of_stripL e hp
        refine fit_of_strip hbc hk (fun x hx => hf _ hc x (.deeper (n := .article j u ps) hbm ?_ hx)) _ hm
        rw [← strip_type, hbc, strip_type]
        exact hk
    | _ => cases he
  | _ =>
    cases c with
    | article => cases he
    | _ => cases he <;> exact hf _ hc

theorem parseBlockAmendments_fit {analyze : Analyzer} {a b : Act} (hb : ∀ c ∈ a.children, Built c)
    (h : parseBlockAmendments analyze a = .ok b) (hf : ∀ c ∈ a.children, Fit c) : ∀ c ∈ b.children, Fit c := by
  unfold parseBlockAmendments at h
  obtain ⟨cs, hc, h⟩ := resBind_ok h
  cases h
  exact mapRes_has hc fun c hm c' hc' => blockArticle_fit (hb c hm) (hf c hm) hc'

end Verif
