import Verif.Spec.Dict2Object

/-! # What plain data is read as -/

namespace Verif.Spec

variable (env : Env)

/-- What a loop over data goes over: the elements of a list, but also the characters of a string and the keys of a dictionary. -/
inductive Elements : Val → List Val → Prop
  | list (ds) : Elements (.list ds) ds
  | tuple (ds) : Elements (.tuple ds) ds
  | str (s : Str) : Elements (.str s) (s.map fun c => .str [c])
  | dict (items : List (Str × Val)) : Elements (.dict items) (items.map fun x => .str x.1)

/-- What the data says about its class. -/
def tagOf : Val → Option Val
  | .dict items => Dict.get? items (py"__type__")
  | _ => none

/-- The type has no other members than itself. -/
def Alone (t : Ty) : Prop := (∀ ts, t ≠ .union ts) ∧ ∀ c, t = .cls c → (env.info c).subclasses = []

/-- The first type of a type that becomes a dictionary. -/
inductive FirstDict : Ty → Ty → Prop
  | cls (c) : FirstDict (.cls c) (.cls c)
  | union {before m after} (hm : plainType env m = .dict) (h : ∀ u ∈ before, plainType env u ≠ .dict) :
      FirstDict (.union (before ++ m :: after)) m

/-- Which member of a type the data is taken for: the only one; or the one that becomes data of that kind, and for a dictionary the only
such one, or the class that the data names, or the first one if the data names none. -/
inductive TakenFor (t m : Ty) (d : Val) : Prop
  | alone (h : Alone env t) (hm : m = t)
  | kind (hm : Member env t m) (hk : plainType env m = d.pyType) (hd : d.pyType ≠ .dict)
  | only (hm : Member env t m) (hk : plainType env m = .dict) (hd : d.pyType = .dict) (h : ∀ n, Member env t n → plainType env n = .dict → n = m)
  | named {c} (hm : Member env t m) (hk : plainType env m = .dict) (hd : d.pyType = .dict) (hc : m = .cls c)
      (h : tagOf d = some (.str (env.info c).name))
  | first (hm : Member env t m) (hk : plainType env m = .dict) (hd : d.pyType = .dict) (hf : FirstDict env t m) (h : tagOf d = none)

mutual
/-- Data is read as a value of a type. -/
inductive ReadAs : Ty → Val → Val → Prop
  | of {t m d v} (hm : TakenFor env t m d) (h : ReadExactly m d v) : ReadAs t d v

/-- Data is read as a value of exactly the type. Data for a simple type is not looked at; missing and superfluous elements
of a tuple are not noticed; all keys for an object are names of attributes. -/
inductive ReadExactly : Ty → Val → Val → Prop
  | prim (p d) : ReadExactly (.prim p) d d
  | list {t d ds vs} (hd : Elements d ds) (hl : ds.length = vs.length) (h : ∀ x ∈ ds.zip vs, ReadAs t x.1 x.2) : ReadExactly (.list t) d (.list vs)
  | tupleVar {t d ds vs} (hd : Elements d ds) (hl : ds.length = vs.length) (h : ∀ x ∈ ds.zip vs, ReadAs t x.1 x.2) :
      ReadExactly (.tupleVar t) d (.tuple vs)
  | tuple {ts d ds vs} (hd : Elements d ds) (hl : vs.length = min ts.length ds.length)
      (h : ∀ x ∈ ts.zip (ds.zip vs), ReadAs x.1 x.2.1 x.2.2) : ReadExactly (.tuple ts) d (.tuple vs)
  | enum {c ms n} (hk : (env.info c).kind = .enum ms) (hn : n ∈ ms) : ReadExactly (.cls c) (.str n) (.enum c n)
  | type {ts r} (h : ClassIn env ts r) : ReadExactly (.typeOf ts) (.str (env.nameOf r)) (.type r)
  | obj {c fs items as vs} (hk : (env.info c).kind = .attrs fs)
      (known : ∀ k ∈ items.map (·.1), k = py"__type__" ∨ ∃ f ∈ fs, f.init = true ∧ f.name = k)
      (hn : as.map (·.1) = (fs.filter (·.init)).map (·.name)) (h : ∀ x ∈ (fs.filter (·.init)).zip as, ReadField c items x.1 x.2.2)
      (made : env.finish c as = .ok vs) : ReadExactly (.cls c) (.dict items) (.obj c vs)

/-- The value of an attribute is what the data has for it, or else its default. -/
inductive ReadField : ClassId → List (Str × Val) → Field → Val → Prop
  | given {c items f d v} (hd : (f.name, d) ∈ items) (h : ReadAs f.type d v) : ReadField c items f v
  | default {c items f v} (hn : f.name ∉ items.map (·.1)) (h : f.default.or (env.factory c f.name) = some v) : ReadField c items f v
end

end Verif.Spec
