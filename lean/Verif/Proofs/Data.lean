import Verif.Model.Objects
import Verif.Spec.Data
import Verif.Spec.Structure
import Verif.Proofs.Dict2Object
import Verif.Props.Dict2Object

/-! # The data of acts, proofs -/

namespace Verif

open Spec

/-- The value is of the type and has the data. -/
def Written (env : Env) (t : Ty) (v p : Val) : Prop := HasType env t v ∧ env.toDict t v = .ok p

/-- The values of attributes have the entries. -/
structure FieldsWritten (env : Env) (fs : List Field) (vs items : List (Str × Val)) : Prop where
  names : vs.map (·.1) = fs.map (·.name)
  inits : ∀ f ∈ fs, f.init = true
  typed : ∀ x ∈ fs.zip vs, HasType env x.1.type x.2.2
  written : env.toDictFields fs vs = .ok items
  keys : ∀ k ∈ items.map (·.1), k ∈ fs.map (·.name)

section
variable {env : Env}

/-- No attributes. -/
theorem fields_nil : FieldsWritten env [] [] [] := ⟨rfl, by simp, by simp, rfl, by simp⟩

/-- One attribute more. -/
theorem fields_cons {f : Field} {fs : List Field} {v : Val} {vs items new : List (Str × Val)} (hi : f.init = true) (ht : HasType env f.type v)
    (hv : if Env.keepsField f v then ∃ p, env.toDict f.type v = .ok p ∧ new = [(f.name, p)] else new = [])
    (h : FieldsWritten env fs vs items) : FieldsWritten env (f :: fs) ((f.name, v) :: vs) (new ++ items) := by
  refine ⟨by simp [h.names], ?_, ?_, ?_, ?_⟩
  · intro g hg
    rcases List.mem_cons.1 hg with rfl | hg
    · exact hi
    · exact h.inits g hg
  · intro y hy
    rcases List.mem_cons.1 (by simpa using hy) with rfl | hy
    · exact ht
    · exact h.typed y hy
  · rw [Env.toDictFields]
    split at hv
    · obtain ⟨p, hp, rfl⟩ := hv
      rename_i hk
      simp [hk, hp, h.written]
      rfl
    · rename_i hk
      simp [hk, h.written, hv]
  · intro k hk
    simp only [List.map_append, List.mem_append] at hk
    rcases hk with hk | hk
    · split at hv
      · obtain ⟨p, hp, rfl⟩ := hv
        simp at hk
        simp [hk]
      · simp [hv] at hk
    · simp [h.keys k hk]

/-- An attribute without default. -/
theorem fields_required {name : Str} {t : Ty} {fs : List Field} {v p : Val} {vs items : List (Str × Val)} (hw : Written env t v p)
    (h : FieldsWritten env fs vs items) :
    FieldsWritten env (.required name t :: fs) ((name, v) :: vs) ((name, p) :: items) :=
  fields_cons (f := .required name t) (new := [(name, p)]) rfl hw.1 (by simp [Env.keepsField, Field.required]; exact hw.2) h

/-- An attribute with a default that has it. -/
theorem fields_default {name : Str} {t : Ty} {fs : List Field} {v d : Val} {vs items : List (Str × Val)} (ht : HasType env t v)
    (hd : pyEq v d = true) (h : FieldsWritten env fs vs items) :
    FieldsWritten env (.withDefault name t d :: fs) ((name, v) :: vs) items :=
  fields_cons (f := .withDefault name t d) (new := []) rfl ht (by simp [Env.keepsField, Field.withDefault, hd]) h

/-- An attribute with a default that has another value. -/
theorem fields_other {name : Str} {t : Ty} {fs : List Field} {v d p : Val} {vs items : List (Str × Val)} (hw : Written env t v p)
    (hd : pyEq v d = false) (h : FieldsWritten env fs vs items) :
    FieldsWritten env (.withDefault name t d :: fs) ((name, v) :: vs) ((name, p) :: items) :=
  fields_cons (f := .withDefault name t d) (new := [(name, p)]) rfl hw.1
    (by simp [Env.keepsField, Field.withDefault, hd]; exact hw.2) h

/-- A part of a union. -/
theorem hasType_union {ts : List Ty} {t : Ty} {v : Val} (ht : t ∈ ts) (h : HasType env t v) : HasType env (.union ts) v := by
  obtain ⟨hm, he⟩ := h
  exact .of (.union ht hm) he

/-- None is not equal to other values. -/
theorem pyEq_none {v : Val} (h : v.pyType ≠ .prim .none) : pyEq v .none = false := by
  cases v <;> simp_all [pyEq, Val.pyType, Val.number]

/-- A value that may be None. -/
theorem fields_optional {name : Str} {t : Ty} {fs : List Field} {o q : Option Val} {vs items : List (Str × Val)}
    (hn : .prim .none ∈ (match t with | .union ts => ts | _ => []))
    (hw : ∀ v, o = some v → v.pyType ≠ .prim .none ∧ ∃ p, q = some p ∧ Written env t v p) (hq : o = none → q = none)
    (h : FieldsWritten env fs vs items) :
    FieldsWritten env (.withDefault name t .none :: fs) ((name, .orNone o) :: vs) (entry name q ++ items) := by
  cases o with
  | none =>
    rw [hq rfl]
    refine fields_default (v := .none) ?_ rfl h
    cases t with
    | union ts => exact hasType_union hn (.of (.self (by simp)) (.prim rfl))
    | _ => simp at hn
  | some v =>
    obtain ⟨h1, p, rfl, h2⟩ := hw v rfl
    exact fields_other h2 (pyEq_none h1) h

/-- The other attributes are not written. -/
theorem fields_rest {gs : List Field} (hg : ∀ f ∈ gs, f.init = false) : ∀ ws, env.toDictFields gs ws = .ok [] := by
  induction gs with
  | nil => intro ws; cases ws <;> simp [Env.toDictFields]
  | cons g gs ih =>
    intro ws
    cases ws with
    | nil => simp [Env.toDictFields]
    | cons w ws =>
      rw [Env.toDictFields]
      simp [Env.keepsField, hg g (by simp)]
      exact ih (fun f hf => hg f (by simp [hf])) ws

/-- Attributes in two parts. -/
theorem toDictFields_append {fs gs : List Field} (hg : ∀ f ∈ gs, f.init = false) : ∀ {vs ws items : List (Str × Val)},
    vs.map (·.1) = fs.map (·.name) → env.toDictFields fs vs = .ok items → env.toDictFields (fs ++ gs) (vs ++ ws) = .ok items := by
  induction fs with
  | nil =>
    intro vs ws items hn h
    obtain rfl : vs = [] := by simpa using hn
    simp only [Env.toDictFields, Except.ok.injEq] at h
    subst h
    exact fields_rest hg ws
  | cons f fs ih =>
    intro vs ws items hn h
    cases vs with
    | nil => simp at hn
    | cons v vs =>
      obtain ⟨k, v⟩ := v
      simp only [List.map_cons, List.cons.injEq] at hn
      simp only [List.cons_append, Env.toDictFields] at h ⊢
      split at h
      · rename_i hk
        rw [if_pos hk]
        obtain ⟨p, hp, h⟩ := resBind_ok h
        obtain ⟨ps, hps, h⟩ := resBind_ok h
        cases h
        rw [hp, ih hn.2 hps]
        rfl
      · rename_i hk
        rw [if_neg hk]
        exact ih hn.2 h

/-- An object. -/
theorem object_written {x : Extra} (hx : env.finish = x.finish) {t : Ty} {c : ClassId} {fs gs : List Field} {vs items : List (Str × Val)} {tagged : Bool}
    (hk : (env.info c).kind = .attrs (fs ++ gs)) (hname : (env.info c).name = c) (hm : Member env t (.cls c))
    (hc : env.chooseToDict t (.cls c) = .ok (.attrs c (fs ++ gs), tagged)) (hu : (py"__type__") ∉ fs.map (·.name))
    (hg : ∀ f ∈ gs, f.init = false) (hn : (x c vs).map (·.1) = gs.map (·.name)) (h : FieldsWritten env fs vs items) :
    Written env t (x.make c vs) (.dict (items ++ if tagged then named c else [])) := by
  have hlen : vs.length = fs.length := by simpa using congrArg List.length h.names
  refine ⟨.of hm (.obj hk (by simp [h.names, hn]) ?_ ?_), ?_⟩
  · intro y hy hi
    rw [List.zip_append hlen.symm, List.mem_append] at hy
    rcases hy with hy | hy
    · exact h.typed y hy
    · rw [hg y.1 (List.of_mem_zip hy).1] at hi
      cases hi
  · rw [hx, List.zip_append hlen.symm, List.filterMap_append]
    have h1 : (fs.zip vs).filterMap (fun x => if x.1.init then some x.2 else none) = vs := by
      have : ∀ (fs : List Field) (vs : List (Str × Val)), fs.length = vs.length → (∀ f ∈ fs, f.init = true) →
          (fs.zip vs).filterMap (fun x => if x.1.init then some x.2 else none) = vs := by
        intro fs
        induction fs with
        | nil => intro vs hl _; cases vs <;> simp_all
        | cons f fs ih =>
          intro vs hl hi
          cases vs with
          | nil => simp at hl
          | cons v vs =>
            simp only [List.zip_cons_cons, List.filterMap_cons, hi f (by simp), if_true]
            rw [ih vs (by simpa using hl) (fun g hg => hi g (by simp [hg]))]
      exact this fs vs hlen.symm h.inits
    have h2 : (gs.zip (x c vs)).filterMap (fun x => if x.1.init then some x.2 else none) = [] := by
      rw [List.filterMap_eq_nil_iff]
      intro y hy
      rw [hg y.1 (List.of_mem_zip hy).1]
      simp
    rw [h1, h2, List.append_nil]
    rfl
  · rw [Extra.make, Env.toDict, hc]
    simp only [bind, Except.bind, toDictFields_append hg h.names h.written]
    cases tagged
    · simp
    · simp only [if_true]
      rw [set_not_mem (fun hk => hu (h.keys _ hk)), hname]
      rfl

/-- A string. -/
theorem str_written (s : Str) : Written env (.prim .str) (.str s) (.str s) := ⟨.of (.self (by simp)) (.prim rfl), rfl⟩

/-- A whole number. -/
theorem int_written (n : Int) : Written env (.prim .int) (.int n) (.int n) := ⟨.of (.self (by simp)) (.prim rfl), rfl⟩

/-- A number. -/
theorem float_written (q : Rat) : Written env (.prim .float) (.float q) (.float q) := ⟨.of (.self (by simp)) (.prim rfl), rfl⟩

/-- A truth value. -/
theorem bool_written (b : Bool) : Written env (.prim .bool) (.bool b) (.bool b) := ⟨.of (.self (by simp)) (.prim rfl), rfl⟩

/-- Values and their data. -/
theorem all_written {α : Type} {t : Ty} {f g : α → Val} : ∀ {as : List α}, (∀ a ∈ as, Written env t (f a) (g a)) →
    env.toDictAll t (as.map f) = .ok (as.map g)
  | [], _ => by simp [Env.toDictAll]
  | a :: as, h => by
    simp only [List.map_cons, Env.toDictAll]
    rw [(h a (by simp)).2, all_written (fun b hb => h b (by simp [hb]))]
    rfl

/-- A tuple. -/
theorem tuple_written {α : Type} {t : Ty} {f g : α → Val} {as : List α} (h : ∀ a ∈ as, Written env t (f a) (g a)) :
    Written env (.tupleVar t) (.tuple (as.map f)) (.list (as.map g)) := by
  refine ⟨.of (.self (by simp)) (.tupleVar fun v hv => ?_), ?_⟩
  · obtain ⟨a, ha, rfl⟩ := List.mem_map.1 hv
    exact (h a ha).1
  · rw [Env.toDict, show env.chooseToDict (.tupleVar t) .tuple = .ok (.tupleVar t, false) from rfl]
    simp only [bind, Except.bind, all_written h]

/-- A list. -/
theorem list_written {α : Type} {t : Ty} {f g : α → Val} {as : List α} (h : ∀ a ∈ as, Written env t (f a) (g a)) :
    Written env (.list t) (.list (as.map f)) (.list (as.map g)) := by
  refine ⟨.of (.self (by simp)) (.list fun v hv => ?_), ?_⟩
  · obtain ⟨a, ha, rfl⟩ := List.mem_map.1 hv
    exact (h a ha).1
  · rw [Env.toDict, show env.chooseToDict (.list t) .list = .ok (.list t, false) from rfl]
    simp only [bind, Except.bind, all_written h]

/-- `Optional[str]`. -/
theorem optStr_written (s : Str) : Written env (.optional (.prim .str)) (.str s) (.str s) :=
  ⟨hasType_union (t := .prim .str) (by simp) (str_written s).1, rfl⟩

/-- `Optional[Tuple[t, ...]]`. -/
theorem optTuple_written {t : Ty} {vs ps : List Val} (h : Written env (.tupleVar t) (.tuple vs) (.list ps)) :
    Written env (.optional (.tupleVar t)) (.tuple vs) (.list ps) := by
  refine ⟨hasType_union (t := .tupleVar t) (by simp) h.1, ?_⟩
  have h2 := h.2
  rw [Env.toDict, show env.chooseToDict (.tupleVar t) .tuple = .ok (.tupleVar t, false) from rfl] at h2
  rw [Env.toDict, show env.chooseToDict (.optional (.tupleVar t)) .tuple = .ok (.tupleVar t, false) from rfl]
  exact h2

/-- `name: Optional[str] = None`. -/
theorem fields_optStr {name : Str} {fs : List Field} (o : Option Str) {vs items : List (Str × Val)} (h : FieldsWritten env fs vs items) :
    FieldsWritten env (.orNone name (.prim .str) :: fs) ((name, .optStr o) :: vs) (entry name (o.map .str) ++ items) :=
  fields_optional (by simp [Ty.optional]) (fun v hv => by
    cases o with
    | none => cases hv
    | some s =>
      obtain rfl : Val.str s = v := by simpa using hv
      exact ⟨by simp [Val.pyType], _, rfl, optStr_written s⟩) (by cases o <;> simp) h

/-- `name: Optional[Tuple[t, ...]] = None`. -/
theorem fields_optTuple {α : Type} {name : Str} {t : Ty} {f g : α → Val} {fs : List Field} {o : Option (List α)} {vs items : List (Str × Val)}
    (ho : ∀ as, o = some as → ∀ a ∈ as, Written env t (f a) (g a)) (h : FieldsWritten env fs vs items) :
    FieldsWritten env (.orNone name (.tupleVar t) :: fs) ((name, .orNone (o.map fun as => .tuple (as.map f))) :: vs)
      (entry name (o.map fun as => .list (as.map g)) ++ items) :=
  fields_optional (by simp [Ty.optional]) (fun v hv => by
    cases o with
    | none => cases hv
    | some as =>
      obtain rfl : Val.tuple (as.map f) = v := by simpa using hv
      exact ⟨by simp [Val.pyType], _, rfl, optTuple_written (tuple_written (ho as rfl))⟩) (by cases o <;> simp) h

/-- `name: bool = False`. -/
theorem fields_sign {name : Str} {fs : List Field} (b : Bool) {vs items : List (Str × Val)} (h : FieldsWritten env fs vs items) :
    FieldsWritten env (.withDefault name (.prim .bool) (.bool false) :: fs) ((name, .bool b) :: vs) (sign name b ++ items) := by
  cases b
  · exact fields_default (bool_written false).1 (by decide) h
  · exact fields_other (bool_written true) (by decide) h

end

/-! ## The converters of the classes -/

/-- The type whose converter is chosen in a union, and whether the name of the class is added. -/
def chosenType (env : Env) (ts : List Ty) (type : PyType) : Option (Ty × Bool) :=
  match env.setupMulti ts with
  | .ok (.union _ _ dicts) => (dicts.toDict.get? type).map fun m => (m, decide (dicts.toDict.length > 1))
  | _ => none

/-- The classes of the project with constructors that add attributes. -/
abbrev Extra.env (x : Extra) : Env := hunLawEnv x.finish

/-- The converters do not depend on what the constructors do. -/
theorem chosenType_any (x : Extra) (ts : List Ty) (type : PyType) :
    chosenType x.env ts type = chosenType (hunLawEnv fun _ vs => .ok vs) ts type := by
  have hi : x.env.info = (hunLawEnv fun _ vs => .ok vs).info := rfl
  have hd : x.env.depth = (hunLawEnv fun _ vs => .ok vs).depth := rfl
  unfold chosenType Env.setupMulti
  rw [collect_congr hi hd, possibleTypes_congr hi hd, disambiguate_congr hi]

/-- The converter in a union. -/
theorem choose_union {x : Extra} {t : Ty} {ts : List Ty} {c : ClassId} {fs : List Field} {b : Bool} (ht : x.env.create t = x.env.setupMulti ts)
    (hk : (x.env.info c).kind = .attrs fs) (h : chosenType (hunLawEnv fun _ vs => .ok vs) ts (.cls c) = some (.cls c, b)) :
    x.env.chooseToDict t (.cls c) = .ok (.attrs c fs, b) := by
  rw [← chosenType_any x, chosenType] at h
  split at h
  · rename_i hs
    obtain ⟨m, hm, h⟩ := Option.map_eq_some_iff.1 h
    simp only [Prod.mk.injEq] at h
    obtain ⟨rfl, rfl⟩ := h
    rw [Env.chooseToDict, ht, hs]
    simp only [bind, Except.bind, hm]
    simp [Env.single, hk]
  · cases h

section
variable {x : Extra} (hx : Adds x)
include hx

/-- The attributes that are added. -/
theorem adds_rest {c : ClassId} {fs gs : List Field} {vs : List (Str × Val)} (hk : (x.env.info c).kind = .attrs (fs ++ gs))
    (hf : ∀ f ∈ fs, f.init = true) (hg : ∀ f ∈ gs, f.init = false) : (x c vs).map (·.1) = gs.map (·.name) := by
  rw [hx c _ vs hk, List.filter_append, List.filter_eq_nil_iff.2 (by simpa using hf), List.filter_eq_self.2 (by simpa using hg), List.nil_append]

/-- An object where only objects of its class can be. -/
theorem class_written {c : ClassId} {fs : List Field} (gs : List Field) {vs items : List (Str × Val)}
    (hi : x.env.info c = { name := c, kind := .attrs (fs ++ gs) }) (hg : gs.all fun f => !f.init)
    (hu : (py"__type__") ∉ fs.map (·.name)) (h : FieldsWritten x.env fs vs items) :
    Written x.env (.cls c) (x.make c vs) (.dict items) := by
  have hg' : ∀ f ∈ gs, f.init = false := by simpa using hg
  have hk : (x.env.info c).kind = .attrs (fs ++ gs) := by rw [hi]
  have := object_written (t := .cls c) (tagged := false) rfl hk (by rw [hi]) (.self (by simp))
    (by simp [Env.chooseToDict, Env.create, hi, Env.single, bind, Except.bind]) hu hg' (adds_rest hx hk h.inits hg') h
  simpa using this

/-- An object where objects of other classes can be. -/
theorem union_written {t : Ty} {ts : List Ty} {c : ClassId} {fs : List Field} (gs : List Field) {vs items : List (Str × Val)} {b : Bool}
    (ht : x.env.create t = x.env.setupMulti ts) (hm : Member x.env t (.cls c))
    (hi : x.env.info c = { name := c, kind := .attrs (fs ++ gs) }) (hg : gs.all fun f => !f.init)
    (hu : (py"__type__") ∉ fs.map (·.name)) (hc : chosenType (hunLawEnv fun _ vs => .ok vs) ts (.cls c) = some (.cls c, b))
    (h : FieldsWritten x.env fs vs items) :
    Written x.env t (x.make c vs) (.dict (items ++ if b then named c else [])) := by
  have hg' : ∀ f ∈ gs, f.init = false := by simpa using hg
  have hk : (x.env.info c).kind = .attrs (fs ++ gs) := by rw [hi]
  exact object_written rfl hk (by rw [hi]) hm (choose_union ht hk hc) hu hg' (adds_rest hx hk h.inits hg') h

omit hx

/-- The attributes of a part of a line. -/
theorem part_fields (p : Part) : FieldsWritten x.env
    [.required (py"dx") (.prim .float), .required (py"content") (.prim .str), .withDefault (py"bold") (.prim .bool) (.bool false)]
    [(py"dx", .float p.dx), (py"content", .str p.content), (py"bold", .bool p.bold)]
    ([(py"dx", .float p.dx), (py"content", .str p.content)] ++ sign (py"bold") p.bold) :=
  fields_required (float_written _) (fields_required (str_written _) (by simpa using fields_sign p.bold fields_nil))

include hx

/-- A part of a line. -/
theorem part_written (p : Part) : Written x.env (.cls (py"IndentedLinePart")) (p.object x) (partData p) :=
  class_written hx [] rfl rfl (by decide +kernel) (part_fields p)

/-- The attributes of a line. -/
theorem line_fields (l : Line) : FieldsWritten x.env
    [.required (py"_parts") (.tupleVar (.cls (py"IndentedLinePart"))), .withDefault (py"margin_right") (.prim .float) (.int 0)]
    [(py"_parts", .tuple (l.parts.map (Part.object x))), (py"margin_right", .float l.marginRight)]
    ([(py"_parts", .list (l.parts.map partData))] ++ if l.marginRight = 0 then [] else [(py"margin_right", .float l.marginRight)]) := by
  refine fields_required (tuple_written fun p _ => part_written hx p) ?_
  by_cases h : l.marginRight = 0
  · rw [if_pos h]
    exact fields_default (float_written _).1 (by rw [h]; decide) fields_nil
  · rw [if_neg h]
    exact fields_other (float_written _) (by simpa [pyEq, Val.number, eq_comm] using h) fields_nil

/-- A line. -/
theorem line_written (l : Line) : Written x.env (.cls (py"IndentedLine")) (l.object x) (lineData l) :=
  class_written hx [.computed (py"content"), .computed (py"indent"), .computed (py"bold")] rfl rfl (by decide +kernel) (line_fields hx l)

omit hx

/-- The attributes of a date. -/
theorem date_fields (d : Date) : FieldsWritten x.env
    [.required (py"year") (.prim .int), .required (py"month") (.prim .int), .required (py"day") (.prim .int)]
    [(py"year", .int d.year), (py"month", .int d.month), (py"day", .int d.day)] (dateItems d) :=
  fields_required (int_written _) (fields_required (int_written _) (fields_required (int_written _) fields_nil))

/-- A component of a reference. -/
theorem fields_ident {env : Env} {name : Str} {fs : List Field} (o : Option Ident) {vs items : List (Str × Val)}
    (h : FieldsWritten env fs vs items) :
    FieldsWritten env (.withDefault name referencePartType .none :: fs) ((name, .orNone (o.map Ident.value)) :: vs)
      (entry name (o.map identData) ++ items) :=
  fields_optional (by simp [referencePartType]) (fun v hv => by
    cases o with
    | none => cases hv
    | some i =>
      cases i with
      | one s =>
        obtain rfl : Val.str s = v := by simpa [Ident.value] using hv
        exact ⟨by simp [Val.pyType], _, rfl, hasType_union (t := .prim .str) (by simp) (str_written s).1, rfl⟩
      | range a b =>
        obtain rfl : Val.tuple [.str a, .str b] = v := by simpa [Ident.value] using hv
        refine ⟨by simp [Val.pyType], _, rfl, hasType_union (t := .tuple [.prim .str, .prim .str]) (by simp) (.of (.self (by simp)) (.tuple rfl ?_)), rfl⟩
        intro y hy
        simp only [List.zip_cons_cons, List.zip_nil_right, List.mem_cons, List.not_mem_nil, or_false] at hy
        rcases hy with rfl | rfl
        · exact (str_written a).1
        · exact (str_written b).1) (by cases o <;> simp) h

/-- The attributes of a reference. -/
theorem reference_fields (r : Reference) : FieldsWritten x.env
    [.orNone (py"act") (.prim .str), .withDefault (py"article") referencePartType .none, .withDefault (py"paragraph") referencePartType .none,
     .withDefault (py"point") referencePartType .none, .withDefault (py"subpoint") referencePartType .none]
    [(py"act", .optStr r.act), (py"article", .orNone (r.article.map Ident.value)), (py"paragraph", .orNone (r.paragraph.map Ident.value)),
     (py"point", .orNone (r.point.map Ident.value)), (py"subpoint", .orNone (r.subpoint.map Ident.value))] (referenceItems r) := by
  have := fields_optStr (env := x.env) (name := py"act") r.act (fields_ident (name := py"article") r.article
    (fields_ident (name := py"paragraph") r.paragraph (fields_ident (name := py"point") r.point
      (fields_ident (name := py"subpoint") r.subpoint fields_nil))))
  simpa [referenceItems] using this

include hx

/-- A date. -/
theorem date_written (d : Date) : Written x.env (.cls (py"Date")) (d.object x) (.dict (dateItems d)) :=
  class_written hx [] rfl rfl (by decide +kernel) (date_fields d)

/-- A reference. -/
theorem reference_written (r : Reference) : Written x.env (.cls (py"Reference")) (r.object x) (.dict (referenceItems r)) :=
  class_written hx [] rfl rfl (by decide +kernel) (reference_fields r)

omit hx in
/-- An object of a class that may be None. -/
theorem optObject_written {c : ClassId} {v p : Val} (hc : x.env.chooseToDict (.optional (.cls c)) v.pyType = x.env.chooseToDict (.cls c) v.pyType)
    (hv : ∃ vs, v = .obj c vs) (h : Written x.env (.cls c) v p) : Written x.env (.optional (.cls c)) v p := by
  refine ⟨hasType_union (t := .cls c) (by simp) h.1, ?_⟩
  have h2 := h.2
  obtain ⟨vs, rfl⟩ := hv
  rw [Env.toDict] at h2 ⊢
  rw [← h2, show PyType.cls c = (Val.obj c vs).pyType from rfl, hc]

omit hx in
/-- An attribute that is an object or None. -/
theorem fields_optObject {α : Type} {name : Str} {c : ClassId} {f g : α → Val} {fs : List Field} {o : Option α} {vs items : List (Str × Val)}
    (hc : x.env.chooseToDict (.optional (.cls c)) (.cls c) = x.env.chooseToDict (.cls c) (.cls c))
    (ho : ∀ a, (∃ vs, f a = .obj c vs) ∧ Written x.env (.cls c) (f a) (g a)) (h : FieldsWritten x.env fs vs items) :
    FieldsWritten x.env (.orNone name (.cls c) :: fs) ((name, .orNone (o.map f)) :: vs) (entry name (o.map g) ++ items) :=
  fields_optional (by simp [Ty.optional]) (fun v hv => by
    cases o with
    | none => cases hv
    | some a =>
      obtain rfl : f a = v := by simpa using hv
      obtain ⟨⟨ws, hw⟩, h2⟩ := ho a
      exact ⟨by simp [hw, Val.pyType], _, rfl, optObject_written (by rw [hw]; exact hc) ⟨ws, hw⟩ h2⟩) (by cases o <;> simp) h

/-- The position of a subtitle. -/
theorem combo_written (s : SubtitleArticleCombo) : Written x.env (.cls (py"SubtitleArticleCombo")) (s.object x)
    (.dict [(py"position", .str (comboName s.position)), (py"article_id", .str s.articleId)]) := by
  have hp : Written x.env (.cls (py"SubtitleArticleComboType")) s.position.value (.str (comboName s.position)) := by
    cases s.position
    all_goals exact ⟨.of (.self (by simp)) (.enum (ms := [py"BEFORE_WITH_ARTICLE", py"BEFORE_WITHOUT_ARTICLE", py"AFTER"]) rfl (by simp)), rfl⟩
  have : FieldsWritten x.env
      [.required (py"position") (.cls (py"SubtitleArticleComboType")), .required (py"article_id") (.prim .str)] _ _ :=
    fields_required hp (fields_required (str_written s.articleId) fields_nil)
  exact class_written hx [] rfl rfl (by decide +kernel) this

/-- The attributes of a reference to a structural element. -/
theorem structural_fields (r : StructuralReference) : FieldsWritten x.env
    [.orNone (py"act") (.prim .str), .orNone (py"book") (.prim .str), .orNone (py"part") (.prim .str), .orNone (py"title") (.prim .str),
     .orNone (py"chapter") (.prim .str), .orNone (py"subtitle") (.prim .str), .orNone (py"special") (.cls (py"SubtitleArticleCombo"))]
    [(py"act", .optStr r.act), (py"book", .optStr r.book), (py"part", .optStr r.part), (py"title", .optStr r.title),
     (py"chapter", .optStr r.chapter), (py"subtitle", .optStr r.subtitle), (py"special", .orNone (r.special.map (SubtitleArticleCombo.object x)))]
    (structuralItems r) := by
  have := fields_optStr (env := x.env) (name := py"act") r.act (fields_optStr (name := py"book") r.book (fields_optStr (name := py"part") r.part
    (fields_optStr (name := py"title") r.title (fields_optStr (name := py"chapter") r.chapter (fields_optStr (name := py"subtitle") r.subtitle
      (fields_optObject (f := SubtitleArticleCombo.object x) (name := py"special") (o := r.special) rfl (fun a => ⟨⟨_, rfl⟩, combo_written hx a⟩) fields_nil))))))
  simpa [structuralItems] using this

/-- What is amended or repealed. -/
theorem position_written (p : Position) : Written x.env (.union [.cls (py"Reference"), .cls (py"StructuralReference")]) (p.object x) (positionData p) := by
  cases p with
  | ref r =>
    exact union_written hx [] (b := true) rfl (.union (t := .cls (py"Reference")) (by simp) (.self (by simp))) rfl rfl (by decide +kernel)
      (by decide +kernel) (reference_fields r)
  | struct r =>
    exact union_written hx [] (b := true) rfl (.union (t := .cls (py"StructuralReference")) (by simp) (.self (by simp))) rfl rfl (by decide +kernel)
      (by decide +kernel) (structural_fields hx r)

/-- When something comes into force. -/
theorem timeObject_written (t : EnforcementTime) : Written x.env
    (.union [.cls (py"Date"), .cls (py"DaysAfterPublication"), .cls (py"DayInMonthAfterPublication"), .cls (py"SpecialEnforcementDate")])
    (t.object x) (timeData t) := by
  have one : ∀ {name : Str} (n : Int) {fs vs items}, FieldsWritten x.env fs vs items →
      FieldsWritten x.env (.withDefault name (.prim .int) (.int 1) :: fs) ((name, .int n) :: vs) ((if n = 1 then [] else [(name, .int n)]) ++ items) := by
    intro name n fs vs items h
    by_cases hn : n = 1
    · rw [if_pos hn]
      exact fields_default (int_written n).1 (by rw [hn]; decide) h
    · rw [if_neg hn]
      refine fields_other (int_written n) ?_ h
      have : ¬ ((1 : Rat) = (n : Rat)) := by
        intro h
        have : ((1 : Int) : Rat) = (n : Rat) := h
        exact hn (by simpa [eq_comm] using Rat.intCast_inj.1 this)
      simpa [pyEq, Val.number] using this
  cases t with
  | date d =>
    exact union_written hx [] (b := true) rfl (.union (t := .cls (py"Date")) (by simp) (.self (by simp))) rfl rfl (by decide +kernel)
      (by decide +kernel) (date_fields d)
  | days n =>
    have := one (name := py"days") n fields_nil
    rw [List.append_nil] at this
    exact union_written hx [] (b := true) rfl (.union (t := .cls (py"DaysAfterPublication")) (by simp) (.self (by simp))) rfl rfl (by decide +kernel)
      (by decide +kernel) this
  | dayInMonth d m =>
    have := fields_required (name := py"day") (int_written d) (one (name := py"months") m fields_nil)
    rw [List.append_nil] at this
    exact union_written hx [] (b := true) rfl (.union (t := .cls (py"DayInMonthAfterPublication")) (by simp) (.self (by simp))) rfl rfl (by decide +kernel)
      (by decide +kernel) this
  | special s =>
    have := fields_required (env := x.env) (name := py"description") (str_written s) fields_nil
    exact union_written hx [] (b := true) rfl (.union (t := .cls (py"SpecialEnforcementDate")) (by simp) (.self (by simp))) rfl rfl (by decide +kernel)
      (by decide +kernel) this

omit hx in
/-- A class below another one. -/
theorem below {c d : ClassId} (h : d ∈ ((hunLawEnv fun _ vs => .ok vs).info c).subclasses) : Member x.env (.cls c) (.cls d) := .sub (.step (.refl c) h)

/-- What a sentence does. -/
theorem semantic_written (d : SemanticData) : Written x.env (.cls (py"SemanticData")) (d.object x) (semanticData d) := by
  cases d with
  | blockAmendment p i =>
    have := fields_required (name := py"position") (position_written hx p) (fields_sign (name := py"pure_insertion") i fields_nil)
    rw [List.append_nil] at this
    exact union_written hx [] (ts := [.cls (py"SemanticData")]) (b := true) rfl (below (by decide +kernel)) rfl rfl (by decide +kernel)
      (by decide +kernel) this
  | enforcementDate p d r =>
    have hp : Written x.env (.optional (.cls (py"Reference"))) (.orNone (p.map (Reference.object x)))
        (match p with | some r => .dict (referenceItems r) | none => .none) := by
      cases p with
      | none => exact ⟨hasType_union (t := .prim .none) (by simp) (.of (.self (by simp)) (.prim rfl)), rfl⟩
      | some r => exact optObject_written rfl ⟨_, rfl⟩ (reference_written hx r)
    have := fields_required (name := py"position") hp (fields_required (name := py"date") (timeObject_written hx d)
      (fields_optObject (f := Date.object x) (name := py"repeal_date") (o := r) rfl (fun a => ⟨⟨_, rfl⟩, date_written hx a⟩) fields_nil))
    rw [List.append_nil] at this
    exact union_written hx [] (ts := [.cls (py"SemanticData")]) (b := true) rfl (below (by decide +kernel)) rfl rfl (by decide +kernel)
      (by decide +kernel) this
  | textAmendment p o r =>
    have := fields_required (name := py"position") (reference_written hx p) (fields_required (name := py"original_text") (str_written o)
      (fields_required (name := py"replacement_text") (str_written r) fields_nil))
    exact union_written hx [] (ts := [.cls (py"SemanticData")]) (b := true) rfl (below (by decide +kernel)) rfl rfl (by decide +kernel)
      (by decide +kernel) this
  | articleTitleAmendment p o r =>
    have := fields_required (name := py"position") (reference_written hx p) (fields_required (name := py"original_text") (str_written o)
      (fields_required (name := py"replacement_text") (str_written r) fields_nil))
    exact union_written hx [] (ts := [.cls (py"SemanticData")]) (b := true) rfl (below (by decide +kernel)) rfl rfl (by decide +kernel)
      (by decide +kernel) this
  | repeal p t =>
    have := fields_required (name := py"position") (position_written hx p) (fields_optStr (name := py"text") t fields_nil)
    rw [List.append_nil] at this
    exact union_written hx [] (ts := [.cls (py"SemanticData")]) (b := true) rfl (below (by decide +kernel)) rfl rfl (by decide +kernel)
      (by decide +kernel) this

/-- An abbreviation. -/
theorem abbreviation_written (a : ActIdAbbreviation) : Written x.env (.cls (py"ActIdAbbreviation")) (a.object x) (abbreviationData a) := by
  have := fields_required (env := x.env) (name := py"abbreviation") (str_written a.abbreviation)
    (fields_required (name := py"act") (str_written a.act) fields_nil)
  exact class_written hx [] rfl rfl (by decide +kernel) this

/-- A reference in a text. -/
theorem outgoing_written (r : OutgoingReference) : Written x.env (.cls (py"OutgoingReference")) (r.object x) (outgoingData r) := by
  have := fields_required (name := py"start_pos") (int_written r.startPos) (fields_required (name := py"end_pos") (int_written r.endPos)
    (fields_required (name := py"reference") (reference_written hx r.reference) fields_nil))
  exact class_written hx [] rfl rfl (by decide +kernel) this

omit hx in
/-- The attributes of a structural element. -/
theorem element_fields {fs : List Field} {vs items : List (Str × Val)} (i t : Str) (h : FieldsWritten x.env fs vs items) :
    FieldsWritten x.env (structuralFields ++ fs) ([(py"identifier", .str i), (py"title", .str t)] ++ vs)
      ([(py"identifier", .str i), (py"title", .str t)] ++ items) :=
  fields_required (str_written i) (fields_required (str_written t) h)

/-- A structural element. -/
theorem structure_written {t : Ty} {ts : List Ty} (ht : x.env.create t = x.env.setupMulti ts)
    (hm : ∀ k : StructKind, Member x.env t (.cls k.pyClass))
    (hc : ∀ k : StructKind, chosenType (hunLawEnv fun _ vs => .ok vs) ts (.cls k.pyClass) = some (.cls k.pyClass, true)) (e : StructuralElement) :
    Written x.env t (e.object x) (.dict (elementItems (.structural e) ++ named (elementName (.structural e)))) := by
  have hm := hm e.kind
  have hc := hc e.kind
  obtain ⟨k, i, title, special⟩ := e
  cases k
  case part =>
    have := element_fields i title (fields_sign (name := py"special") special (fields_nil (env := x.env)))
    rw [List.append_nil] at this
    have := union_written hx [] (b := true) ht hm rfl rfl (by decide +kernel) hc this
    simpa [elementItems, elementName, StructuralElement.object, StructKind.pyClass] using this
  all_goals
    have := element_fields i title (fields_nil (env := x.env))
    have := union_written hx [] (b := true) ht hm rfl rfl (by decide +kernel) hc this
    simpa [elementItems, elementName, StructuralElement.object, sign, StructKind.pyClass] using this

/-- The attributes of a part of an article. -/
theorem sae_fields {k : SaeKind} (d : SaeData) {cs : List Node}
    (hcs : x.env.toDictAll subArticleChildType (objects x cs) = .ok (elementsData cs) ∧ ∀ v ∈ objects x cs, HasType x.env subArticleChildType v) :
    FieldsWritten x.env (saeFields.take 8)
      [(py"identifier", .optStr d.identifier), (py"text", .optStr d.text), (py"intro", .optStr d.intro),
       (py"children", if cs.isEmpty then .none else .tuple (objects x cs)), (py"wrap_up", .optStr d.wrapUp),
       (py"act_id_abbreviations", .orNone (d.abbreviations.map fun as => .tuple (as.map (ActIdAbbreviation.object x)))),
       (py"outgoing_references", .orNone (d.references.map fun rs => .tuple (rs.map (OutgoingReference.object x)))),
       (py"semantic_data", .orNone (d.semantic.map fun ss => .tuple (ss.map (SemanticData.object x))))] (elementItems (.sae k d cs)) := by
  have h1 := fields_optStr (name := py"wrap_up") d.wrapUp
    (fields_optTuple (name := py"act_id_abbreviations") (o := d.abbreviations) (fun _ _ a _ => abbreviation_written hx a)
      (fields_optTuple (name := py"outgoing_references") (o := d.references) (fun _ _ a _ => outgoing_written hx a)
        (fields_optTuple (name := py"semantic_data") (o := d.semantic) (fun _ _ a _ => semantic_written hx a) fields_nil)))
  have h2 := fields_optional (name := py"children") (t := .optional (.tupleVar subArticleChildType))
    (o := if cs.isEmpty then none else some (.tuple (objects x cs))) (q := if cs.isEmpty then none else some (.list (elementsData cs)))
    (by simp [Ty.optional]) (fun v hv => by
      cases hn : cs.isEmpty with
      | true => simp [hn] at hv
      | false =>
        obtain rfl : Val.tuple (objects x cs) = v := by simpa [hn] using hv
        refine ⟨by simp [Val.pyType], _, rfl, optTuple_written ⟨.of (.self (by simp)) (.tupleVar hcs.2), ?_⟩⟩
        rw [Env.toDict, show x.env.chooseToDict (.tupleVar subArticleChildType) .tuple = .ok (.tupleVar subArticleChildType, false) from rfl]
        simp only [bind, Except.bind, hcs.1]) (by cases cs.isEmpty <;> simp) h1
  have h3 := fields_optStr (name := py"identifier") d.identifier (fields_optStr (name := py"text") d.text (fields_optStr (name := py"intro") d.intro h2))
  have e : (if cs.isEmpty then Val.none else .tuple (objects x cs)) = .orNone (if cs.isEmpty then none else some (.tuple (objects x cs))) := by
    cases cs.isEmpty <;> rfl
  rw [e, elementItems]
  simp only [List.append_assoc, List.append_nil] at h3 ⊢
  exact h3

omit hx in
/-- The children of parts of articles can be of these classes. -/
theorem child_member {c : ClassId} (h : c ∈ [py"Article", py"QuotedBlock"] ∨ (∃ k : SaeKind, c = k.pyClass) ∨ ∃ k : StructKind, c = k.pyClass) :
    Member x.env subArticleChildType (.cls c) := by
  rcases h with h | ⟨k, rfl⟩ | ⟨k, rfl⟩
  · exact .union (t := .cls c) (by simp at h; rcases h with rfl | rfl <;> simp) (.self (by simp))
  · exact .union (t := .cls (py"SubArticleElement")) (by simp) (below (by cases k <;> decide +kernel))
  · exact .union (t := .cls (py"StructuralElement")) (by simp) (below (by cases k <;> decide +kernel))

/-- A paragraph in an article. -/
theorem paragraph_written (d : SaeData) {cs : List Node}
    (hcs : x.env.toDictAll subArticleChildType (objects x cs) = .ok (elementsData cs) ∧ ∀ v ∈ objects x cs, HasType x.env subArticleChildType v) :
    Written x.env (.cls (py"Paragraph")) ((Node.sae .paragraph d cs).object x) (.dict (elementItems (.sae .paragraph d cs))) := by
  rw [Node.object]
  exact class_written hx (saeFields.drop 8) rfl rfl (by decide +kernel) (sae_fields hx d hcs)

omit hx in
/-- The attributes of an article. -/
theorem article_fields (i : Str) (t : Option Str) {cs : List Node}
    (hcs : x.env.toDictAll (.cls (py"Paragraph")) (objects x cs) = .ok (paragraphsData cs) ∧ ∀ v ∈ objects x cs, HasType x.env (.cls (py"Paragraph")) v) :
    FieldsWritten x.env
      [.required (py"identifier") (.prim .str), .required (py"children") (.tupleVar (.cls (py"Paragraph"))), .orNone (py"title") (.prim .str)]
      [(py"identifier", .str i), (py"children", .tuple (objects x cs)), (py"title", .optStr t)] (elementItems (.article i t cs)) := by
  have hp : Written x.env (.tupleVar (.cls (py"Paragraph"))) (.tuple (objects x cs)) (.list (paragraphsData cs)) := by
    refine ⟨.of (.self (by simp)) (.tupleVar hcs.2), ?_⟩
    rw [Env.toDict, show x.env.chooseToDict (.tupleVar (.cls (py"Paragraph"))) .tuple = .ok (.tupleVar (.cls (py"Paragraph")), false) from rfl]
    simp only [bind, Except.bind, hcs.1]
  have := fields_required (name := py"identifier") (str_written i) (fields_required (name := py"children") hp
    (fields_optStr (name := py"title") t fields_nil))
  rw [elementItems]
  simpa using this

omit hx in
/-- Objects one by one. -/
theorem objects_eq (cs : List Node) : objects x cs = cs.map (Node.object x) := by
  induction cs with
  | nil => rw [objects]; rfl
  | cons c cs ih => rw [objects, ih]; rfl

omit hx in
/-- Their data one by one. -/
theorem elementsData_eq (cs : List Node) : elementsData cs = cs.map fun c => .dict (elementItems c ++ named (elementName c)) := by
  induction cs with
  | nil => rw [elementsData]; rfl
  | cons c cs ih => rw [elementsData, ih]; rfl

omit hx in
/-- The data of paragraphs one by one. -/
theorem paragraphsData_eq (cs : List Node) : paragraphsData cs = cs.map fun c => .dict (elementItems c) := by
  induction cs with
  | nil => rw [paragraphsData]; rfl
  | cons c cs ih => rw [paragraphsData, ih]; rfl

omit hx in
/-- The data of several objects. -/
theorem objects_written {t : Ty} {g : Node → Val} {cs : List Node} (h : ∀ c ∈ cs, Written x.env t (c.object x) (g c)) :
    x.env.toDictAll t (objects x cs) = .ok (cs.map g) ∧ ∀ v ∈ objects x cs, HasType x.env t v := by
  rw [objects_eq]
  refine ⟨all_written h, fun v hv => ?_⟩
  obtain ⟨c, hc, rfl⟩ := List.mem_map.1 hv
  exact (h c hc).1

/-- Every element. -/
theorem element_written {n : Node} (hn : Built n) :
    Written x.env subArticleChildType (n.object x) (.dict (elementItems n ++ named (elementName n))) ∧
    (n.type = .sae .paragraph → Written x.env (.cls (py"Paragraph")) (n.object x) (.dict (elementItems n))) ∧
    (n.type = .article → Written x.env (.union [.cls (py"StructuralElement"), .cls (py"Article")]) (n.object x)
      (.dict (elementItems n ++ named (elementName n)))) := by
  induction hn with
  | @sae k d n children parts made ih =>
    obtain rfl : n = .sae k d (children.getD []) := by
      obtain ⟨_, _, made⟩ := resBind_ok made
      split at made
      · cases made
      · split at made
        · cases made
        · cases made; rfl
    have hcs := objects_written (x := x) (t := subArticleChildType) (cs := children.getD [])
      (g := fun c => .dict (elementItems c ++ named (elementName c))) (by
        cases children with
        | none => simp
        | some cs => exact fun c hc => (ih cs rfl c hc).1)
    rw [← elementsData_eq] at hcs
    refine ⟨?_, fun h => ?_, by simp [Node.type]⟩
    · rw [Node.object]
      have hm := child_member (x := x) (c := k.pyClass) (.inr (.inl ⟨k, rfl⟩))
      have hi : x.env.info k.pyClass = { name := k.pyClass, kind := .attrs (saeFields.take 8 ++ saeFields.drop 8) } := by
        cases k <;> rfl
      have := union_written hx (saeFields.drop 8) (b := true) rfl hm hi rfl (by decide +kernel) (by cases k <;> decide +kernel) (sae_fields hx (k := k) d hcs)
      cases k <;> exact this
    · obtain rfl : k = .paragraph := by simpa [Node.type] using h
      exact paragraph_written hx d hcs
  | @article i t n children parts typed made ih =>
    obtain rfl : n = .article i t children := by
      rw [mkArticle] at made
      split at made
      · cases made
      · cases made; rfl
    have hcs := objects_written (x := x) (t := .cls (py"Paragraph")) (cs := children)
      (g := fun c => .dict (elementItems c)) (fun c hc => (ih c hc).2.1 (typed c hc))
    rw [← paragraphsData_eq] at hcs
    have hf := article_fields i t hcs
    refine ⟨?_, by simp [Node.type], fun _ => ?_⟩
    · rw [Node.object]
      exact union_written hx [.computed (py"paragraph_map"), .computed (py"is_semantic_parsed")] (b := true) rfl
        (child_member (.inl (by simp))) rfl rfl (by decide +kernel) (by decide +kernel) hf
    · rw [Node.object]
      exact union_written hx [.computed (py"paragraph_map"), .computed (py"is_semantic_parsed")] (b := true) rfl
        (.union (t := .cls (py"Article")) (by simp) (.self (by simp))) rfl rfl (by decide +kernel) (by decide +kernel) hf
  | quoted ls =>
    refine ⟨?_, by simp [Node.type], by simp [Node.type]⟩
    have := fields_required (name := py"lines") (tuple_written fun l (_ : l ∈ ls) => line_written hx l) fields_nil
    rw [Node.object]
    exact union_written hx [] (b := true) rfl (child_member (.inl (by simp))) rfl rfl (by decide +kernel) (by decide +kernel) this
  | structural e =>
    refine ⟨?_, by simp [Node.type], by simp [Node.type]⟩
    rw [Node.object]
    exact structure_written hx rfl (fun k => child_member (.inr (.inr ⟨k, rfl⟩))) (by intro k; cases k <;> decide +kernel) e

/-- Every child of an act. -/
theorem actChild_written {n : Node} (hn : Built n) (ha : InAct n) :
    Written x.env (.union [.cls (py"StructuralElement"), .cls (py"Article")]) (n.object x) (.dict (elementItems n ++ named (elementName n))) := by
  rcases ha with ha | ⟨k, ha⟩
  · exact (element_written hx hn).2.2 ha
  · cases n with
    | structural e =>
      rw [Node.object]
      exact structure_written hx rfl (fun k => .union (t := .cls (py"StructuralElement")) (by simp) (below (by cases k <;> decide +kernel)))
        (by intro k; cases k <;> decide +kernel) e
    | _ => simp [Node.type] at ha

/-- An act. -/
theorem actObject_written {a : Act} (ha : ∀ n ∈ a.children, InAct n ∧ Built n) : Written x.env (.cls (py"Act")) (a.object x) (actData a) := by
  have hcs := objects_written (x := x) (t := .union [.cls (py"StructuralElement"), .cls (py"Article")]) (cs := a.children)
    (g := fun c => .dict (elementItems c ++ named (elementName c))) (fun c hc => actChild_written hx (ha c hc).2 (ha c hc).1)
  rw [← elementsData_eq] at hcs
  have hp : Written x.env (.tupleVar (.union [.cls (py"StructuralElement"), .cls (py"Article")])) (.tuple (objects x a.children))
      (.list (elementsData a.children)) := by
    refine ⟨.of (.self (by simp)) (.tupleVar hcs.2), ?_⟩
    rw [Env.toDict, show x.env.chooseToDict (.tupleVar (.union [.cls (py"StructuralElement"), .cls (py"Article")])) .tuple =
      .ok (.tupleVar (.union [.cls (py"StructuralElement"), .cls (py"Article")]), false) from rfl]
    simp only [bind, Except.bind, hcs.1]
  have := fields_required (name := py"identifier") (str_written a.identifier) (fields_required (name := py"publication_date")
    (date_written hx a.publicationDate) (fields_required (name := py"subject") (str_written a.subject) (fields_required (name := py"preamble")
      (str_written a.preamble) (fields_required (name := py"children") hp fields_nil))))
  exact class_written hx [.computed (py"articles"), .computed (py"articles_map"), .computed (py"is_semantic_parsed")] rfl rfl (by decide +kernel) this

/-- A raw text. -/
theorem rawText_written (r : LawRawText) : Written x.env (.cls (py"MagyarKozlonyLawRawText")) (r.object x) (rawTextData r) := by
  have := fields_required (name := py"identifier") (str_written r.identifier) (fields_required (name := py"publication_date")
    (date_written hx r.publicationDate) (fields_required (name := py"subject") (str_written r.subject) (fields_required (name := py"body")
      (tuple_written fun l (_ : l ∈ r.body) => line_written hx l) fields_nil)))
  exact class_written hx [] rfl rfl (by decide +kernel) this

/-- The lines of a PDF. -/
theorem pdf_written (p : PdfOfLines) : Written x.env (.cls (py"PdfOfLines")) (PdfOfLines.object x p) (pdfData p) := by
  have hpage : ∀ page : List Line, Written x.env (.cls (py"PageOfLines")) (x.make (py"PageOfLines") [(py"lines", .list (page.map (Line.object x)))])
      (.dict [(py"lines", .list (page.map lineData))]) := by
    intro page
    have := fields_required (name := py"lines") (list_written fun l (_ : l ∈ page) => line_written hx l) fields_nil
    exact class_written hx [] rfl rfl (by decide +kernel) this
  have := fields_required (name := py"pages") (list_written fun page (_ : page ∈ p) => hpage page) fields_nil
  exact class_written hx [] rfl rfl (by decide +kernel) this

end

end Verif
