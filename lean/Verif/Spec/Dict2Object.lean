import Verif.Model.Dict2Object

/-! # Values of types, and which types can be told apart in plain data -/

namespace Verif.Spec

variable (env : Env)

/-- The second class is the first one or below it. -/
inductive SubclassOf : ClassId → ClassId → Prop
  | refl (c) : SubclassOf c c
  | step {c d e} (h : SubclassOf c d) (he : e ∈ (env.info d).subclasses) : SubclassOf c e

/-- The classes of the program: no chain of subclasses is longer than the depth that the model looks at. -/
def Bounded : Prop := ∃ rank : ClassId → Nat, (∀ c, rank c ≤ env.depth) ∧ ∀ c, ∀ d ∈ (env.info c).subclasses, rank d < rank c

/-- What a value of a type can be exactly: an object of a class or of a class below it, a value of one of the types of a union. -/
inductive Member : Ty → Ty → Prop
  | self {t} (h : ∀ ts, t ≠ .union ts) : Member t t
  | sub {c d} (h : SubclassOf env c d) : Member (.cls c) (.cls d)
  | union {ts t m} (ht : t ∈ ts) (h : Member t m) : Member (.union ts) m

/-- The classes that are values of `Type[t, u, …]`. -/
inductive ClassIn (ts : List Ty) : ClassRef → Prop
  | prim {p} (h : .prim p ∈ ts) : ClassIn ts (.prim p)
  | user {c d} (h : .cls c ∈ ts) (hd : SubclassOf env c d) : ClassIn ts (.user d)

mutual
/-- The value is of the type. -/
inductive HasType : Ty → Val → Prop
  | of {t m v} (hm : Member env t m) (h : Exact m v) : HasType t v

/-- The value is exactly of the type, not of one below it. An object is one that its class makes from its attributes. -/
inductive Exact : Ty → Val → Prop
  | prim {p v} (h : v.pyType = .prim p) : Exact (.prim p) v
  | list {t vs} (h : ∀ v ∈ vs, HasType t v) : Exact (.list t) (.list vs)
  | tupleVar {t vs} (h : ∀ v ∈ vs, HasType t v) : Exact (.tupleVar t) (.tuple vs)
  | tuple {ts vs} (hl : ts.length = vs.length) (h : ∀ x ∈ ts.zip vs, HasType x.1 x.2) : Exact (.tuple ts) (.tuple vs)
  | enum {c ms n} (hk : (env.info c).kind = .enum ms) (hn : n ∈ ms) : Exact (.cls c) (.enum c n)
  | type {ts r} (h : ClassIn env ts r) : Exact (.typeOf ts) (.type r)
  | obj {c fs vs} (hk : (env.info c).kind = .attrs fs) (hn : vs.map (·.1) = fs.map (·.name))
      (h : ∀ x ∈ fs.zip vs, x.1.init = true → HasType x.1.type x.2.2)
      (made : env.finish c ((fs.zip vs).filterMap fun x => if x.1.init then some x.2 else none) = .ok vs) : Exact (.cls c) (.obj c vs)
end

/-- The types of the parts of values. -/
inductive Component : Ty → Ty → Prop
  | list (t) : Component (.list t) t
  | tupleVar (t) : Component (.tupleVar t) t
  | tuple {ts t} (h : t ∈ ts) : Component (.tuple ts) t
  | field {c fs f} (hk : (env.info c).kind = .attrs fs) (hf : f ∈ fs) (hi : f.init = true) : Component (.cls c) f.type

/-- The types that parts of values of a type can be of, at any depth. -/
inductive Reach (t : Ty) : Ty → Prop
  | refl : Reach t t
  | step {u m w} (h : Reach t u) (hm : Member env u m) (hc : Component env m w) : Reach t w

/-- The converter for the type can be built, with all its subconverters. -/
def Accepted (t : Ty) : Prop := ∃ depth cache, env.build depth [] t true = .ok cache

/-- What kind of plain data the values of a type become. -/
def plainType : Ty → PyType
  | .prim p => .prim p
  | .list _ | .tupleVar _ | .tuple _ => .list
  | .typeOf _ => .prim .str
  | .cls c => match (env.info c).kind with
    | .enum _ => .prim .str
    | _ => .dict
  | .union _ => .dict

/-- The type that a value of the type has itself. -/
def valueType : Ty → PyType
  | .prim p => .prim p
  | .list _ => .list
  | .tupleVar _ | .tuple _ => .tuple
  | .typeOf _ => .type
  | .cls c => .cls c
  | .union _ => .dict

/-- The types whose values are told from others by their kind of data alone or by the name of their class: not enums, which become
strings, not tuples, which become lists, and not classes as values. -/
inductive KeepsKind : Ty → Prop
  | prim (p) : KeepsKind (.prim p)
  | list (t) : KeepsKind (.list t)
  | attrs {c fs} (h : (env.info c).kind = .attrs fs) : KeepsKind (.cls c)

/-- Two types cannot be told apart in plain data: both become the same kind of data, and if both are classes that become dictionaries,
they have the same name. -/
def Confusable (a b : Ty) : Prop :=
  a ≠ b ∧ plainType env a = plainType env b ∧
  ∀ c d, a = .cls c → b = .cls d → plainType env a = .dict → (env.info c).name = (env.info d).name

/-- The members of a type can be told apart, and so can the classes in `Type[…]`. -/
def Clear (t : Ty) : Prop :=
  (∀ a b, Member env t a → Member env t b → ¬ Confusable env a b) ∧
  ∀ ts, Member env t (.typeOf ts) → ∀ r s, ClassIn env ts r → ClassIn env ts s → env.nameOf r = env.nameOf s → r = s

/-- Conditions on the classes: enums have no subclasses; attributes do not begin with two underscores and are different without
the underscore. -/
structure Sound : Prop where
  enums : ∀ c ms, (env.info c).kind = .enum ms → (env.info c).subclasses = []
  underscores : ∀ c fs, (env.info c).kind = .attrs fs → ∀ f ∈ fs, f.init = true → ∀ rest, f.name ≠ '_' :: '_' :: rest
  names : ∀ c fs, (env.info c).kind = .attrs fs → ((fs.filter (·.init)).map fun f => Env.initArg f.name).Nodup

/-- The two lists are equally long and their elements are related. -/
inductive AllRel {α β : Type} (R : α → β → Prop) : List α → List β → Prop
  | nil : AllRel R [] []
  | cons {a b as bs} (h : R a b) (hs : AllRel R as bs) : AllRel R (a :: as) (b :: bs)

/-- The same attributes with related values. -/
def ItemsRel (R : Val → Val → Prop) (vs ws : List (Str × Val)) : Prop := AllRel (fun x y => x.1 = y.1 ∧ R x.2 y.2) vs ws

/-- The number that a value is: True is one and False is zero. -/
def NumberOf (v : Val) (q : Rat) : Prop := (v = .bool true ∧ q = 1) ∨ (v = .bool false ∧ q = 0) ∨ (∃ n : Int, v = .int n ∧ q = n) ∨ v = .float q

/-- Values that are equal: the same but for numbers of another type somewhere inside. -/
inductive Equal : Val → Val → Prop
  | same (v) : Equal v v
  | number {v w q} (hv : NumberOf v q) (hw : NumberOf w q) : Equal v w
  | list {vs ws} (h : AllRel Equal vs ws) : Equal (.list vs) (.list ws)
  | tuple {vs ws} (h : AllRel Equal vs ws) : Equal (.tuple vs) (.tuple ws)
  | dict {vs ws : List (Str × Val)} (names : vs.map (·.1) = ws.map (·.1)) (values : AllRel Equal (vs.map (·.2)) (ws.map (·.2))) :
      Equal (.dict vs) (.dict ws)
  | obj {c} {vs ws : List (Str × Val)} (names : vs.map (·.1) = ws.map (·.1)) (values : AllRel Equal (vs.map (·.2)) (ws.map (·.2))) :
      Equal (.obj c vs) (.obj c ws)

/-- From equal values of the attributes, `__init__` makes equal objects. -/
def MakesEqual : Prop :=
  ∀ c vs ws as, ItemsRel Equal vs ws → env.finish c vs = .ok as →
    ∃ bs, env.finish c ws = .ok bs ∧ ItemsRel Equal as bs

/-- A value that is equal to the default of its attribute is the default; not so if the attribute is `True` and the default `1`. -/
def ExactDefaults : Prop :=
  ∀ c fs, (env.info c).kind = .attrs fs → ∀ f ∈ fs, ∀ d v, f.default = some d → HasType env f.type v → Equal v d → v = d

/-- Plain data: what JSON can represent. -/
inductive PlainData : Val → Prop
  | bool (b) : PlainData (.bool b)
  | int (n) : PlainData (.int n)
  | float (x) : PlainData (.float x)
  | str (s) : PlainData (.str s)
  | none : PlainData .none
  | list {vs} (h : ∀ v ∈ vs, PlainData v) : PlainData (.list vs)
  | dict {items} (hn : (items.map (·.1)).Nodup) (h : ∀ x ∈ items, PlainData x.2) : PlainData (.dict items)

end Verif.Spec
