import Verif.Proofs.OnlyParts
import Verif.Props.Pipeline

/-! # C90: what the JSON file of an act says -/

namespace Verif.Props

open Verif.Spec

/-- C90. The data of an act has what the act has, under these names, in this order, and nothing else, whatever the constructors
compute for the other attributes. -/
theorem act_data {x : Extra} (hx : Adds x) {a : Act} (ha : ∀ n ∈ a.children, InAct n ∧ Built n) :
    (hunLawEnv x.finish).toDict (.cls (py"Act")) (a.object x) = .ok (actData a) :=
  (actObject_written hx ha).2

/-- C90. So has the data of every act that is made, whatever was understood of it. -/
theorem produced_data {s : Sources} {c : ExtractedClass} {r : LawRawText} {o : Extracted} {a : Act} (h : Produces s c r o)
    (ho : o = .structureOnly a ∨ o = .blockOnly a ∨ o = .act a) {x : Extra} (hx : Adds x) :
    (hunLawEnv x.finish).toDict (.cls (py"Act")) (a.object x) = .ok (actData a) :=
  act_data hx fun n hn => ⟨((produced_well_made h ho).2 n hn).1, ((produced_well_made h ho).2 n hn).2.1⟩

/-- C90. The same for the text of an act as it was extracted. -/
theorem raw_text_data {x : Extra} (hx : Adds x) (r : LawRawText) :
    (hunLawEnv x.finish).toDict (.cls (py"MagyarKozlonyLawRawText")) (r.object x) = .ok (rawTextData r) :=
  (rawText_written hx r).2

/-- C90. The same for the lines of a PDF, which are stored in the cache. -/
theorem pdf_data {x : Extra} (hx : Adds x) (p : PdfOfLines) :
    (hunLawEnv x.finish).toDict (.cls (py"PdfOfLines")) (PdfOfLines.object x p) = .ok (pdfData p) :=
  (pdf_written hx p).2

/-- C90. From this data an equal act is made again. -/
theorem act_data_returns {x : Extra} (hx : Adds x) (hf : MakesEqual (hunLawEnv x.finish)) {a : Act} (ha : ∀ n ∈ a.children, InAct n ∧ Built n) :
    ∃ w, (hunLawEnv x.finish).toObject (.cls (py"Act")) (actData a) = .ok w ∧ Equal (a.object x) w := by
  obtain ⟨h1, h2⟩ := actObject_written hx ha
  obtain ⟨p, w, hp, -, hw, he⟩ := act_round_trip hf h1
  cases h2.symm.trans hp
  exact ⟨w, hw, he⟩

/-- C90. The same for raw texts. -/
theorem raw_text_data_returns {x : Extra} (hx : Adds x) (hf : MakesEqual (hunLawEnv x.finish)) (r : LawRawText) :
    ∃ w, (hunLawEnv x.finish).toObject (.cls (py"MagyarKozlonyLawRawText")) (rawTextData r) = .ok w ∧ Equal (r.object x) w := by
  obtain ⟨h1, h2⟩ := rawText_written hx r
  obtain ⟨p, w, hp, -, hw, he⟩ := raw_act_round_trip hf h1
  cases h2.symm.trans hp
  exact ⟨w, hw, he⟩

/-- C90. The same for the lines of a PDF. -/
theorem pdf_data_returns {x : Extra} (hx : Adds x) (hf : MakesEqual (hunLawEnv x.finish)) (p : PdfOfLines) :
    ∃ w, (hunLawEnv x.finish).toObject (.cls (py"PdfOfLines")) (pdfData p) = .ok w ∧ Equal (PdfOfLines.object x p) w := by
  obtain ⟨h1, h2⟩ := pdf_written hx p
  obtain ⟨q, w, hq, -, hw, he⟩ := pdf_round_trip hf h1
  cases h2.symm.trans hq
  exact ⟨w, hw, he⟩

/-- C90. Different acts have different data. -/
theorem act_data_tells {a b : Act} (ha : ∀ n ∈ a.children, InAct n ∧ Built n) (hb : ∀ n ∈ b.children, InAct n ∧ Built n)
    (oa : ∀ n ∈ a.children, OnlyParts n) (ob : ∀ n ∈ b.children, OnlyParts n) (h : actData a = actData b) : a = b := by
  simp only [actData, Val.dict.injEq, List.cons.injEq, Prod.mk.injEq, true_and, Val.str.injEq, Val.list.injEq, and_true] at h
  obtain ⟨h1, h2, h3, h4, h5⟩ := h
  rw [elementsData_eq, elementsData_eq] at h5
  have h6 : a.children = b.children := by
    refine map_inj_mem (fun n hn m hm e => ?_) h5
    obtain ⟨e1, e2⟩ := named_inj (by simpa using e)
    exact element_inj (ha n hn).2 (hb m hm).2 (oa n hn) (ob m hm) e1 e2
  have := dateItems_inj h2
  cases a
  cases b
  simp_all

/-- C90. Where the program made both acts, from whatever texts and with whatever was understood of them, this holds as it is. -/
theorem produced_data_tells {s t : Sources} {c c' : ExtractedClass} {r r' : LawRawText} {o o' : Extracted} {a b : Act}
    (h : Produces s c r o) (ho : o = .structureOnly a ∨ o = .blockOnly a ∨ o = .act a)
    (h' : Produces t c' r' o') (ho' : o' = .structureOnly b ∨ o' = .blockOnly b ∨ o' = .act b) : actData a = actData b ↔ a = b := by
  refine ⟨fun e => ?_, fun e => e ▸ rfl⟩
  have ha := (produced_well_made h ho).2
  have hb := (produced_well_made h' ho').2
  exact act_data_tells (fun n hn => ⟨(ha n hn).1, (ha n hn).2.1⟩) (fun n hn => ⟨(hb n hn).1, (hb n hn).2.1⟩)
    (produced_onlyParts h ho) (produced_onlyParts h' ho') e

/-- C90. So have different raw texts. -/
theorem raw_text_data_tells {r s : LawRawText} (h : rawTextData r = rawTextData s) : r = s := by
  simp only [rawTextData, Val.dict.injEq, List.cons.injEq, Prod.mk.injEq, true_and, Val.str.injEq, Val.list.injEq, and_true,
    List.map_inj_right fun _ _ => lineData_inj] at h
  have := dateItems_inj h.2.1
  cases r
  cases s
  simp_all

/-- C90. So have different lines. -/
theorem pdf_data_tells {p q : PdfOfLines} (h : pdfData p = pdfData q) : p = q := by
  simp only [pdfData, Val.dict.injEq, List.cons.injEq, Prod.mk.injEq, true_and, Val.list.injEq, and_true] at h
  refine (List.map_inj_right fun a b hab => ?_).1 h
  simpa [List.map_inj_right fun _ _ => lineData_inj] using hab

/-- C90. Where the parts of a line, the lines of a page or the pages are missing from the data, there are none. -/
theorem missing_read {x : Extra} (q : Rat) :
    (hunLawEnv x.finish).toObject (.cls (py"IndentedLine")) (.dict [(py"margin_right", .float q)]) = .ok (Line.object x ⟨[], q⟩) ∧
    (hunLawEnv x.finish).toObject (.cls (py"PageOfLines")) (.dict []) = .ok (x.make (py"PageOfLines") [(py"lines", .list [])]) ∧
    (hunLawEnv x.finish).toObject (.cls (py"PdfOfLines")) (.dict []) = .ok (PdfOfLines.object x []) :=
  ⟨rfl, rfl, rfl⟩

/-! ## Examples -/

/-- Constructors that leave what they compute empty. -/
def addsNone : Extra := fun c _ => match ((hunLawEnv fun _ vs => .ok vs).info c).kind with
  | .attrs fs => (fs.filter fun f => !f.init).map fun f => (f.name, .none)
  | _ => []

/-- They add what they should. -/
theorem addsNone_adds : Adds addsNone := by
  intro c fs vs h
  have h' : ((hunLawEnv fun _ vs => .ok vs).info c).kind = .attrs fs := h
  simp [addsNone, h', Function.comp_def]

/-- They make equal objects of equal ones. -/
theorem addsNone_equal : MakesEqual (hunLawEnv addsNone.finish) := by
  intro c vs ws as h hf
  cases hf
  refine ⟨_, rfl, ?_⟩
  have e : addsNone c vs = addsNone c ws := rfl
  rw [e]
  clear e
  induction h with
  | nil => exact AllRel_refl (fun _ => ⟨rfl, .same _⟩) _
  | cons h _ ih => exact .cons h ih

/-- An act with a part, an article with a list, a reference and an enforcement date. -/
def smallAct : Act where
  identifier := py"2020. évi II. törvény"
  publicationDate := ⟨2020, 2, 3⟩
  subject := py"a példáról"
  preamble := []
  children :=
    [.structural ⟨.part, py"1", [], true⟩,
     .article (py"1") none
      [.sae .paragraph { identifier := some (py"1"), intro := some (py"Ez") }
        [.sae .alphabeticPoint { identifier := some (py"a"), text := some (py"az 5. §,"), references := some [⟨3, 7, { article := some (.one (py"5")) }⟩] } [],
         .sae .alphabeticPoint { identifier := some (py"b"), text := some (py"más.") } []],
       .sae .paragraph { identifier := some (py"2"), text := some (py"Ez a törvény holnap lép hatályba."), semantic := some [.enforcementDate none (.days 1) none] } []]]

example : ∀ n ∈ smallAct.children, InAct n ∧ Built n := by
  intro n hn
  refine ⟨?_, built_of_testL (cs := smallAct.children) (by decide +kernel) n hn⟩
  simp only [smallAct, List.mem_cons, List.not_mem_nil, or_false] at hn
  rcases hn with rfl | rfl
  · exact .inr ⟨_, rfl⟩
  · exact .inl rfl

example : actData smallAct = .dict
    [(py"identifier", .str (py"2020. évi II. törvény")), (py"publication_date", .dict [(py"year", .int 2020), (py"month", .int 2), (py"day", .int 3)]),
     (py"subject", .str (py"a példáról")), (py"preamble", .str []),
     (py"children", .list
      [.dict [(py"identifier", .str (py"1")), (py"title", .str []), (py"special", .bool true), (py"__type__", .str (py"Part"))],
       .dict
        [(py"identifier", .str (py"1")),
         (py"children", .list
          [.dict
            [(py"identifier", .str (py"1")), (py"intro", .str (py"Ez")),
             (py"children", .list
              [.dict
                [(py"identifier", .str (py"a")), (py"text", .str (py"az 5. §,")),
                 (py"outgoing_references", .list
                  [.dict [(py"start_pos", .int 3), (py"end_pos", .int 7), (py"reference", .dict [(py"article", .str (py"5"))])]]),
                 (py"__type__", .str (py"AlphabeticPoint"))],
               .dict [(py"identifier", .str (py"b")), (py"text", .str (py"más.")), (py"__type__", .str (py"AlphabeticPoint"))]])],
           .dict
            [(py"identifier", .str (py"2")), (py"text", .str (py"Ez a törvény holnap lép hatályba.")),
             (py"semantic_data", .list
              [.dict
                [(py"position", .none), (py"date", .dict [(py"__type__", .str (py"DaysAfterPublication"))]),
                 (py"__type__", .str (py"EnforcementDate"))]])]]),
         (py"__type__", .str (py"Article"))]])] := rfl

/-- Other elements are as their children. -/
theorem onlyParts_of_children {n : Node} (h : ∀ e, n ≠ .structural e) (hc : ∀ c ∈ n.children, OnlyParts c) : OnlyParts n := by
  intro e he hs
  cases he with
  | self => exact absurd rfl (h e)
  | deeper hc' he => exact hc _ hc' e he hs

example : ∀ n ∈ smallAct.children, OnlyParts n := by
  intro n hn
  simp only [smallAct, List.mem_cons, List.not_mem_nil, or_false] at hn
  rcases hn with rfl | rfl
  · intro e he _
    cases he with
    | self => rfl
    | deeper hc => simp [Node.children] at hc
  · refine onlyParts_of_children (by simp) ?_
    simp only [Node.children, List.mem_cons, List.not_mem_nil, or_false, forall_eq_or_imp, forall_eq]
    constructor
    · refine onlyParts_of_children (by simp) ?_
      simp only [Node.children, List.mem_cons, List.not_mem_nil, or_false, forall_eq_or_imp, forall_eq]
      exact ⟨onlyParts_of_children (by simp) (by simp [Node.children]), onlyParts_of_children (by simp) (by simp [Node.children])⟩
    · exact onlyParts_of_children (by simp) (by simp [Node.children])

/-- An act that is made: its data is that of no other act that is made. -/
example : ∃ r a, Produces sampleSources .act r (.act a) ∧ (actElements a).length = 2 ∧
    ∀ s c r' b, Produces s c r' (.act b) → actData a = actData b → a = b := by
  obtain ⟨a, b, ⟨pdfs, laws, -, h2, h3⟩, -, -, -, h4⟩ := sampleIssue_gives
  obtain ⟨r, hr, hp⟩ := h3.mem_right (show Extracted.act a ∈ _ by simp)
  exact ⟨r, a, hp, h4, fun s c r' b h e => (produced_data_tells hp (.inr (.inr rfl)) h (.inr (.inr rfl))).1 e⟩

end Verif.Props
