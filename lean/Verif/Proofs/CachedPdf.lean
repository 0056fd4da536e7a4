import Verif.Model.CachedPdf
import Verif.Proofs.Data
import Verif.Props.Data

/-! # Lemmas about reading the lines of issues from the cache -/

namespace Verif

open Spec

theorem part_reads (x : Extra) (p : Part) :
    (hunLawEnv x.finish).toObject (.cls (py"IndentedLinePart")) (partData p) = .ok (Part.object x p) := by
  obtain ⟨dx, content, bold⟩ := p
  cases bold <;> rfl

theorem toObjectAll_map {env : Env} {t : Ty} {α : Type} {f g : α → Val} {l : List α} (h : ∀ a ∈ l, env.toObject t (f a) = .ok (g a)) :
    env.toObjectAll t (l.map f) = .ok (l.map g) := by
  induction l with
  | nil => simp [Env.toObjectAll]
  | cons a l ih =>
    rw [List.map_cons, List.map_cons, Env.toObjectAll, h a (by simp), ih fun b hb => h b (by simp [hb])]
    rfl

/-- A line that was read. -/
def lineRead (x : Extra) (l : Line) : Val :=
  x.make (py"IndentedLine") [(py"_parts", .tuple (l.parts.map (Part.object x))),
    (py"margin_right", if l.marginRight = 0 then .int 0 else .float l.marginRight)]

/-- A page that was read. -/
def pageRead (x : Extra) (p : List Line) : Val := x.make (py"PageOfLines") [(py"lines", .list (p.map (lineRead x)))]

theorem tuple_reads {env : Env} {t : Ty} {vs ws : List Val} (h : env.toObjectAll t vs = .ok ws) :
    env.toObject (.tupleVar t) (.list vs) = .ok (.tuple ws) := by
  rw [Env.toObject]
  show (do .ok (.tuple (← env.toObjectAll t vs)) : Res Val) = _
  rw [h]
  rfl

theorem list_reads {env : Env} {t : Ty} {vs ws : List Val} (h : env.toObjectAll t vs = .ok ws) :
    env.toObject (.list t) (.list vs) = .ok (.list ws) := by
  rw [Env.toObject]
  show (do .ok (.list (← env.toObjectAll t vs)) : Res Val) = _
  rw [h]
  rfl

theorem line_reads (x : Extra) (l : Line) :
    (hunLawEnv x.finish).toObject (.cls (py"IndentedLine")) (lineData l) = .ok (lineRead x l) := by
  obtain ⟨parts, margin⟩ := l
  have h := tuple_reads (toObjectAll_map (env := hunLawEnv x.finish) (t := .cls (py"IndentedLinePart")) (l := parts)
    fun p _ => part_reads x p)
  by_cases hm : margin = 0
  · subst hm
    rw [lineData, if_pos rfl, List.append_nil, Env.toObject]
    show (do
      let kwargs ← (hunLawEnv x.finish).toObjectItems [(py"_parts", .tupleVar (.cls (py"IndentedLinePart"))),
        (py"margin_right", .prim .float)] [(py"_parts", .list (parts.map partData))]
      (hunLawEnv x.finish).callClass (py"IndentedLine") _ (Dict.update [] kwargs) : Res Val) = _
    have : (hunLawEnv x.finish).toObjectItems [(py"_parts", .tupleVar (.cls (py"IndentedLinePart"))),
        (py"margin_right", .prim .float)] [(py"_parts", .list (parts.map partData))] =
        .ok [(py"parts", .tuple (parts.map (Part.object x)))] := by
      rw [Env.toObjectItems, if_neg (by decide)]
      show (do .ok ((py"parts", ← (hunLawEnv x.finish).toObject (.tupleVar (.cls (py"IndentedLinePart"))) (.list (parts.map partData))) ::
        (← (hunLawEnv x.finish).toObjectItems _ [])) : Res (List (Str × Val))) = _
      rw [h, Env.toObjectItems]
      rfl
    rw [this]
    rfl
  · rw [lineData, if_neg hm, lineRead, if_neg hm, Env.toObject]
    show (do
      let kwargs ← (hunLawEnv x.finish).toObjectItems [(py"_parts", .tupleVar (.cls (py"IndentedLinePart"))),
        (py"margin_right", .prim .float)] [(py"_parts", .list (parts.map partData)), (py"margin_right", .float margin)]
      (hunLawEnv x.finish).callClass (py"IndentedLine") _ (Dict.update [] kwargs) : Res Val) = _
    have : (hunLawEnv x.finish).toObjectItems [(py"_parts", .tupleVar (.cls (py"IndentedLinePart"))),
        (py"margin_right", .prim .float)] [(py"_parts", .list (parts.map partData)), (py"margin_right", .float margin)] =
        .ok [(py"parts", .tuple (parts.map (Part.object x))), (py"margin_right", .float margin)] := by
      rw [Env.toObjectItems, if_neg (by decide)]
      show (do .ok ((py"parts", ← (hunLawEnv x.finish).toObject (.tupleVar (.cls (py"IndentedLinePart"))) (.list (parts.map partData))) ::
        (← (hunLawEnv x.finish).toObjectItems _ [(py"margin_right", .float margin)])) : Res (List (Str × Val))) = _
      rw [h]
      rfl
    rw [this]
    rfl

theorem page_reads (x : Extra) (p : List Line) :
    (hunLawEnv x.finish).toObject (.cls (py"PageOfLines")) (.dict [(py"lines", .list (p.map lineData))]) = .ok (pageRead x p) := by
  have h := list_reads (toObjectAll_map (env := hunLawEnv x.finish) (t := .cls (py"IndentedLine")) (l := p) fun l _ => line_reads x l)
  rw [Env.toObject]
  show (do
    let kwargs ← (hunLawEnv x.finish).toObjectItems [(py"lines", .list (.cls (py"IndentedLine")))] [(py"lines", .list (p.map lineData))]
    (hunLawEnv x.finish).callClass (py"PageOfLines") _ (Dict.update [] kwargs) : Res Val) = _
  have : (hunLawEnv x.finish).toObjectItems [(py"lines", .list (.cls (py"IndentedLine")))] [(py"lines", .list (p.map lineData))] =
      .ok [(py"lines", .list (p.map (lineRead x)))] := by
    rw [Env.toObjectItems, if_neg (by decide)]
    show (do .ok ((py"lines", ← (hunLawEnv x.finish).toObject (.list (.cls (py"IndentedLine"))) (.list (p.map lineData))) ::
      (← (hunLawEnv x.finish).toObjectItems _ [])) : Res (List (Str × Val))) = _
    rw [h, Env.toObjectItems]
    rfl
  rw [this]
  rfl

theorem pdf_reads (x : Extra) (p : PdfOfLines) :
    (hunLawEnv x.finish).toObject (.cls (py"PdfOfLines")) (pdfData p) = .ok (x.make (py"PdfOfLines") [(py"pages", .list (p.map (pageRead x)))]) := by
  have h := list_reads (toObjectAll_map (env := hunLawEnv x.finish) (t := .cls (py"PageOfLines")) (l := p) fun l _ => page_reads x l)
  rw [pdfData, Env.toObject]
  show (do
    let kwargs ← (hunLawEnv x.finish).toObjectItems [(py"pages", .list (.cls (py"PageOfLines")))]
      [(py"pages", .list (p.map fun page => .dict [(py"lines", .list (page.map lineData))]))]
    (hunLawEnv x.finish).callClass (py"PdfOfLines") _ (Dict.update [] kwargs) : Res Val) = _
  have : (hunLawEnv x.finish).toObjectItems [(py"pages", .list (.cls (py"PageOfLines")))]
      [(py"pages", .list (p.map fun page => .dict [(py"lines", .list (page.map lineData))]))] =
      .ok [(py"pages", .list (p.map (pageRead x)))] := by
    rw [Env.toObjectItems, if_neg (by decide)]
    show (do .ok ((py"pages", ← (hunLawEnv x.finish).toObject (.list (.cls (py"PageOfLines"))) (.list (p.map fun page => .dict [(py"lines", .list (page.map lineData))]))) ::
      (← (hunLawEnv x.finish).toObjectItems _ [])) : Res (List (Str × Val))) = _
    rw [h, Env.toObjectItems]
    rfl
  rw [this]
  rfl

theorem mapM_map_ok {α β : Type} {f : β → Res α} {g : α → β} (h : ∀ a, f (g a) = .ok a) (l : List α) : (l.map g).mapM f = .ok l := by
  induction l with
  | nil => rfl
  | cons a l ih =>
    rw [List.map_cons, List.mapM_cons, h, ih]
    rfl

theorem partOf_object (x : Extra) (p : Part) : partOf (Part.object x p) = .ok p := rfl

theorem lineOf_read (x : Extra) (l : Line) : lineOf (lineRead x l) = .ok l := by
  obtain ⟨parts, margin⟩ := l
  have h := mapM_map_ok (partOf_object x) parts
  show (do
    let parts ← (parts.map (Part.object x)).mapM partOf
    let margin ← match (if margin = 0 then .int 0 else .float margin : Val) with
      | .float q => .ok q
      | .int n => .ok (n : Rat)
      | _ => .error .typeError
    .ok ⟨parts, margin⟩ : Res Line) = _
  rw [h]
  by_cases hm : margin = 0
  · rw [if_pos hm, hm]
    rfl
  · rw [if_neg hm]
    rfl

theorem pageOf_read (x : Extra) (p : List Line) : pageOf (pageRead x p) = .ok p := mapM_map_ok (lineOf_read x) p

/-- What is read from the data of lines stands for these lines. -/
theorem pdfOf_read (x : Extra) (p : PdfOfLines) :
    (do pdfOf (← (hunLawEnv x.finish).toObject (.cls (py"PdfOfLines")) (pdfData p)) : Res PdfOfLines) = .ok p := by
  rw [pdf_reads]
  exact mapM_map_ok (pageOf_read x) p

/-- What the object of lines stands for. -/
theorem pdfOf_object (x : Extra) (p : PdfOfLines) : pdfOf (PdfOfLines.object x p) = .ok p := by
  have hl : ∀ l, lineOf (Line.object x l) = .ok l := by
    intro l
    show (do
      let parts ← (l.parts.map (Part.object x)).mapM partOf
      .ok ⟨parts, l.marginRight⟩ : Res Line) = _
    rw [mapM_map_ok (partOf_object x)]
    rfl
  have hp : ∀ page : List Line, pageOf (x.make (py"PageOfLines") [(py"lines", .list (page.map (Line.object x)))]) = .ok page :=
    mapM_map_ok hl
  exact mapM_map_ok hp p

end Verif
