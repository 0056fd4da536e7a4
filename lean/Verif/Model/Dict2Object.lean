import Verif.Py.Dict

/-! # Conversion of objects to plain data and back: /repo/hun_law/dict2object.py

Types, classes and values are a small universe. Classes are known by an id, because different classes can have the same
`__name__`. `Union[…]` is given by its arguments after `typing` has flattened it. The comparison of types by `typing`, which does not
look at the order of unions, is equality here. NaN is not modelled. -/

namespace Verif

/-- The types in dict2object.py:375. -/
inductive Prim
  | bool | int | float | str | none
  deriving DecidableEq, Repr

/-- What distinguishes a class from others. -/
abbrev ClassId := Str

/-- The types of values, `TypeOrGeneric` (dict2object.py:25). -/
inductive Ty
  | prim (p : Prim)
  | cls (c : ClassId)
  /-- `List[t]` -/
  | list (t : Ty)
  /-- `Tuple[t, ...]` -/
  | tupleVar (t : Ty)
  /-- `Tuple[t, u, …]` -/
  | tuple (ts : List Ty)
  /-- `Type[t]` or `Type[Union[t, u, …]]` -/
  | typeOf (ts : List Ty)
  /-- `Union[t, u, …]` -/
  | union (ts : List Ty)
  deriving Repr

mutual
/-- `==` of types. -/
def Ty.beq : Ty → Ty → Bool
  | .prim p, .prim q => p = q
  | .cls c, .cls d => c = d
  | .list t, .list u => t.beq u
  | .tupleVar t, .tupleVar u => t.beq u
  | .tuple ts, .tuple us => Ty.beqAll ts us
  | .typeOf ts, .typeOf us => Ty.beqAll ts us
  | .union ts, .union us => Ty.beqAll ts us
  | _, _ => false

/-- `==` of tuples of types. -/
def Ty.beqAll : List Ty → List Ty → Bool
  | [], [] => true
  | t :: ts, u :: us => t.beq u && Ty.beqAll ts us
  | _, _ => false
end

mutual
theorem Ty.beq_iff : ∀ t u : Ty, t.beq u = true ↔ t = u
  | .prim p, u => by cases u <;> simp [Ty.beq]
  | .cls c, u => by cases u <;> simp [Ty.beq]
  | .list t, u => by cases u <;> simp [Ty.beq, Ty.beq_iff t]
  | .tupleVar t, u => by cases u <;> simp [Ty.beq, Ty.beq_iff t]
  | .tuple ts, u => by cases u <;> simp [Ty.beq, Ty.beqAll_iff ts]
  | .typeOf ts, u => by cases u <;> simp [Ty.beq, Ty.beqAll_iff ts]
  | .union ts, u => by cases u <;> simp [Ty.beq, Ty.beqAll_iff ts]

theorem Ty.beqAll_iff : ∀ ts us : List Ty, Ty.beqAll ts us = true ↔ ts = us
  | [], us => by cases us <;> simp [Ty.beqAll]
  | t :: ts, us => by cases us <;> simp [Ty.beqAll, Ty.beq_iff t, Ty.beqAll_iff ts]
end

instance : DecidableEq Ty := fun t u => decidable_of_iff _ (Ty.beq_iff t u)

/-- A class as an object. -/
inductive ClassRef
  | prim (p : Prim)
  | user (c : ClassId)
  deriving DecidableEq, Repr

/-- Values and plain data. -/
inductive Val
  | bool (b : Bool)
  | int (n : Int)
  | float (x : Rat)
  | str (s : Str)
  | none
  | list (vs : List Val)
  | tuple (vs : List Val)
  | dict (items : List (Str × Val))
  /-- A member of an enum, with its `name`. -/
  | enum (c : ClassId) (name : Str)
  /-- A class. Its own type is `type`; classes with a metaclass such as `ABCMeta`, which a union would not find under `type`, are not modelled. -/
  | type (r : ClassRef)
  /-- An object of a class with the values of all attributes in the order of `attr.fields`. -/
  | obj (c : ClassId) (attrs : List (Str × Val))

/-- The result of `type(…)`. -/
inductive PyType
  | prim (p : Prim)
  | list | tuple | dict | type
  | cls (c : ClassId)
  deriving DecidableEq, Repr

/-- `type(v)`. -/
def Val.pyType : Val → PyType
  | .bool _ => .prim .bool
  | .int _ => .prim .int
  | .float _ => .prim .float
  | .str _ => .prim .str
  | .none => .prim .none
  | .list _ => .list
  | .tuple _ => .tuple
  | .dict _ => .dict
  | .enum c _ => .cls c
  | .type _ => .type
  | .obj c _ => .cls c

/-- The number that a bool, an int or a float is when compared. -/
def Val.number : Val → Option Rat
  | .bool b => some (if b then 1 else 0)
  | .int n => some n
  | .float x => some x
  | _ => Option.none

mutual
/-- `v == w`. Objects are equal if they are of the same class and have equal attributes (attrs, with `eq=True` for all of them);
dictionaries are compared in order, which makes no difference where no default is a dictionary. -/
def pyEq : Val → Val → Bool
  | .str s, w => match w with
    | .str t => s = t
    | _ => false
  | .none, w => match w with
    | .none => true
    | _ => false
  | .list vs, w => match w with
    | .list ws => pyEqAll vs ws
    | _ => false
  | .tuple vs, w => match w with
    | .tuple ws => pyEqAll vs ws
    | _ => false
  | .dict vs, w => match w with
    | .dict ws => pyEqItems vs ws
    | _ => false
  | .enum c n, w => match w with
    | .enum d m => c = d && n = m
    | _ => false
  | .type r, w => match w with
    | .type s => r = s
    | _ => false
  | .obj c vs, w => match w with
    | .obj d ws => c = d && pyEqItems vs ws
    | _ => false
  | .bool b, w => w.number = some (if b then 1 else 0)
  | .int n, w => w.number = some (n : Rat)
  | .float x, w => w.number = some x

/-- The same for lists. -/
def pyEqAll : List Val → List Val → Bool
  | [], [] => true
  | v :: vs, w :: ws => pyEq v w && pyEqAll vs ws
  | _, _ => false

/-- The same for attributes. -/
def pyEqItems : List (Str × Val) → List (Str × Val) → Bool
  | [], [] => true
  | (k, v) :: vs, (l, w) :: ws => k = l && pyEq v w && pyEqItems vs ws
  | _, _ => false
end

/-- `attr.Attribute`. `default` is `none` if there is no default or if it is a factory, which no value is equal to. -/
structure Field where
  name : Str
  type : Ty
  init : Bool := true
  default : Option Val := none

/-- What kind of class a class is. -/
inductive ClassKind
  /-- A subclass of `Enum` with the names of its members. -/
  | enum (members : List Str)
  /-- A class made by `attr.s`. -/
  | attrs (fields : List Field)
  /-- Another class. -/
  | plain

/-- A class: its `__name__`, its kind and its `__subclasses__()`. -/
structure ClassInfo where
  name : Str
  kind : ClassKind
  subclasses : List ClassId := []

/-- All classes of the program. -/
structure Env where
  info : ClassId → ClassInfo
  /-- A number that no chain of subclasses exceeds. -/
  depth : Nat
  /-- What the factory of a field gives, if it has one. -/
  factory : ClassId → Str → Option Val := fun _ _ => none
  /-- What `__init__` does with the values of the attributes with `init=True`: it may change or refuse them (converters and validators)
  and sets the other attributes. It gives the values of all attributes. -/
  finish : ClassId → List (Str × Val) → Res (List (Str × Val)) := fun _ vs => .ok vs

namespace Env
variable (env : Env)

/-- `__name__`. -/
def nameOf : ClassRef → Str
  | .prim .bool => py"bool"
  | .prim .int => py"int"
  | .prim .float => py"float"
  | .prim .str => py"str"
  | .prim .none => py"NoneType"
  | .user c => (env.info c).name

/-- `get_subclasses_recursive` (dict2object.py:44-53) of a class, up to a depth. -/
def subclassesRec : Nat → ClassId → List ClassId
  | 0, c => [c]
  | n + 1, c => c :: (env.info c).subclasses.flatMap (subclassesRec n)

/-- `get_subclasses_recursive` (dict2object.py:44-53). -/
def getSubclasses : Ty → List Ty
  | .cls c => (env.subclassesRec env.depth c).map .cls
  | t => [t]

/-- `if candidate_type not in all_possible_types: all_possible_types.append(candidate_type)` (dict2object.py:313-314). -/
def addNew (ts : List Ty) (t : Ty) : List Ty := if t ∈ ts then ts else ts ++ [t]

/-- `all_possible_types` (dict2object.py:310-314). -/
def possibleTypes (ts : List Ty) : List Ty := (ts.flatMap env.getSubclasses).foldl addNew []

/-- The names of the attributes with `init=True` with their types (dict2object.py:224-228). -/
def subconverters (fields : List Field) : Dict Str Ty := (fields.filter (·.init)).map fun f => (f.name, f.type)

end Env

/-- `DictDisambiguator` (dict2object.py:256-278). Its converters are given by the types they are made for. -/
structure DictDisambiguator where
  toDict : Dict PyType Ty := []
  toObj : Dict Str Ty := []
  default : Option Ty := none

/-- The converters. A subconverter is given by the type that it is made for: `create` of that type with `handle_subclasses`, or
without it for the members of a union. -/
inductive Conv
  | noop (p : Prim)
  | list (t : Ty)
  | tupleVar (t : Ty)
  | tuple (ts : List Ty)
  | enum (c : ClassId) (members : List Str)
  | typeName (types : Dict Str ClassRef)
  | attrs (c : ClassId) (fields : List Field)
  | union (toDict toObj : Dict PyType Ty) (dicts : DictDisambiguator)

/-- The `input_types` methods (dict2object.py:98, 121, 142, 162, 182, 209, 249, 349); where there is an input type there is exactly one. -/
def Conv.inputType : Conv → Res PyType
  | .noop p => .ok (.prim p)
  | .list _ => .ok .list
  | .tupleVar _ | .tuple _ => .ok .tuple
  | .enum c _ => .ok (.cls c)
  | .typeName _ => .ok .type
  | .attrs c _ => .ok (.cls c)
  | .union .. => .error .typeError

/-- The `converted_type` methods (dict2object.py:101, 124, 145, 165, 185, 212, 252, 352). -/
def Conv.convertedType : Conv → Res PyType
  | .noop p => .ok (.prim p)
  | .list _ | .tupleVar _ | .tuple _ => .ok .list
  | .enum .. | .typeName _ => .ok (.prim .str)
  | .attrs .. => .ok .dict
  | .union .. => .error .typeError

namespace Env
variable (env : Env)

/-- The types whose names `TypeNameConverter.setup` collects (dict2object.py:194-200), or the ValueError. -/
def classesOf : List Ty → Res (List ClassRef)
  | [] => .ok []
  | .prim p :: ts => do .ok (.prim p :: (← classesOf ts))
  | .cls c :: ts => do .ok ((env.subclassesRec env.depth c).map .user ++ (← classesOf ts))
  | _ :: _ => .error .valueError

/-- `{t.__name__: t for t in …}` (dict2object.py:201). The order of the set is not determined; here it is the order of
collection. -/
def typeNames (rs : List ClassRef) : Dict Str ClassRef := rs.foldl (fun d r => d.set (env.nameOf r) r) []

/-- `ConverterFactory.create` with `handle_subclasses=False` (dict2object.py:363-404) without the creation of subconverters. A
union in a union fails when its `converted_type` is called. -/
def single : Ty → Res Conv
  | .prim p => .ok (.noop p)
  | .list t => .ok (.list t)
  | .tupleVar t => .ok (.tupleVar t)
  | .tuple ts => .ok (.tuple ts)
  | .typeOf ts => do .ok (.typeName (env.typeNames (← env.classesOf ts)))
  | .cls c => match (env.info c).kind with
    | .enum ms => .ok (.enum c ms)
    | .attrs fs => .ok (.attrs c fs)
    | .plain => .error .typeError
  | .union _ => .error .typeError

/-- What `setup_multi` collects in its loop: the dictionaries and `dict_converters` as the types. -/
structure Collected where
  toDict : Dict PyType Ty := []
  toObj : Dict PyType Ty := []
  dictTypes : List (PyType × Ty) := []

/-- `add_typed_subconverter` (dict2object.py:324-332). -/
def addTyped (s : Collected) (input converted : PyType) (t : Ty) : Res Collected :=
  if converted ∈ s.toDict.keys then .error .typeError
  else .ok { s with toDict := s.toDict.set input t, toObj := s.toObj.set converted t }

/-- One round of the loop of `setup_multi` (dict2object.py:316-321). -/
def collect (s : Collected) (t : Ty) : Res Collected := do
  let conv ← env.single t
  let converted ← conv.convertedType
  let input ← conv.inputType
  if converted = .dict then .ok { s with dictTypes := s.dictTypes ++ [(input, t)] }
  else addTyped s input converted t

/-- One round of the loop of `DictDisambiguator.__init__` (dict2object.py:266-278). -/
def disambiguate (d : DictDisambiguator) (x : PyType × Ty) : Res DictDisambiguator :=
  match x.1 with
  | .cls c =>
    let name := (env.info c).name
    if name ∈ d.toObj.keys then .error .typeError
    else .ok { toObj := d.toObj.set name x.2, toDict := d.toDict.set x.1 x.2, default := d.default.or (some x.2) }
  | _ => .error .assertionError

/-- A loop that may fail. -/
def loop {σ α : Type} (f : σ → α → Res σ) : σ → List α → Res σ
  | s, [] => .ok s
  | s, x :: xs => do loop f (← f s x) xs

/-- `UnionConverter.setup_multi` (dict2object.py:305-322). -/
def setupMulti (ts : List Ty) : Res Conv := do
  let s ← loop env.collect {} (env.possibleTypes ts)
  let d ← loop env.disambiguate {} s.dictTypes
  .ok (.union s.toDict s.toObj d)

/-- `ConverterFactory.create` (dict2object.py:363-404) without the creation of
subconverters; `build` has that too. -/
def create : Ty → Res Conv
  | .union ts => env.setupMulti ts
  | .cls c => match (env.info c).kind with
    | .enum ms => .ok (.enum c ms)
    | _ => if (env.info c).subclasses.isEmpty then env.single (.cls c) else env.setupMulti [.cls c]
  | t => env.single t

/-- The types whose subconverters a single converter creates in its `setup` (dict2object.py:109-113, 132-134, 153-154, 221-228). -/
def components : Ty → List Ty
  | .list t | .tupleVar t => [t]
  | .tuple ts => ts
  | .cls c => match (env.info c).kind with
    | .attrs fs => (fs.filter (·.init)).map (·.type)
    | _ => []
  | _ => []

/-- `the_types` where a `UnionConverter` is created (dict2object.py:388-390, 393-395). -/
def unionTypes : Ty → Bool → Option (List Ty)
  | .union ts, _ => some ts
  | .cls c, handleSubclasses => match (env.info c).kind with
    | .enum _ => none
    | _ => if handleSubclasses && !(env.info c).subclasses.isEmpty then some [.cls c] else none
  | _, _ => none

/-- `ConverterFactory.create` (dict2object.py:363-404) with the creation of all subconverters, as deep as the first argument. The result is
the keys of the cache. A union in a union is built first and then fails, as in the code. -/
def build : Nat → List (Ty × Bool) → Ty → Bool → Res (List (Ty × Bool))
  | 0, _, _, _ => .error .runtimeError
  | n + 1, cache, t, handleSubclasses =>
    if (t, handleSubclasses) ∈ cache then .ok cache
    else match env.unionTypes t handleSubclasses with
      | some us => do
        let s ← loop (fun s m => do
          let cache ← build n s.1 m false
          .ok (cache, ← env.collect s.2 m)) ((t, handleSubclasses) :: cache, {}) (env.possibleTypes us)
        let _ ← loop env.disambiguate {} s.2.dictTypes
        .ok s.1
      | none => do
        let _ ← env.single t
        loop (fun cache u => build n cache u true) ((t, handleSubclasses) :: cache) (env.components t)

/-! ## To plain data -/

/-- The converter that converts a value of a type, and whether `__type__` is added: `UnionConverter.to_dict` and
`DictDisambiguator.to_dict` (dict2object.py:289-293, 339-347). -/
def chooseToDict (t : Ty) (type : PyType) : Res (Conv × Bool) := do
  match ← env.create t with
  | .union toDict _ dicts => match dicts.toDict.get? type with
    | some m => do .ok (← env.single m, decide (dicts.toDict.length > 1))
    | none => match toDict.get? type with
      | some m => do .ok (← env.single m, false)
      | none => .error .typeError
  | conv => .ok (conv, false)

/-- `filter=lambda a, v: a.init and v != a.default` (dict2object.py:245). -/
def keepsField (f : Field) (v : Val) : Bool := f.init && !(match f.default with
  | some d => pyEq v d
  | none => false)

/-- Values that only `NoopConverter` converts; other converters fail with some exception. -/
def plainToDict (conv : Conv) (v : Val) : Res Val :=
  match conv with
  | .noop _ => .ok v
  | _ => .error .typeError

mutual
/-- The `to_dict` methods (dict2object.py:95, 118, 139, 159, 179, 206, 241, 289, 339). A value that is not of the type is refused with a TypeError here, where the code sometimes does
something else, for example with other sequences than lists. -/
def toDict (t : Ty) : Val → Res Val
  | .list vs => do
    match (← env.chooseToDict t .list).1 with
    | .list u => do .ok (.list (← toDictAll u vs))
    | conv => plainToDict conv (.list vs)
  | .tuple vs => do
    match (← env.chooseToDict t .tuple).1 with
    | .tupleVar u => do .ok (.list (← toDictAll u vs))
    | .tuple us => do .ok (.list (← toDictZip us vs))
    | conv => plainToDict conv (.tuple vs)
  | .enum c n => do
    match (← env.chooseToDict t (.cls c)).1 with
    | .enum .. => .ok (.str n)
    | conv => plainToDict conv (.enum c n)
  | .type r => do
    match (← env.chooseToDict t .type).1 with
    | .typeName _ => .ok (.str (env.nameOf r))
    | conv => plainToDict conv (.type r)
  | .obj c vs => do
    match ← env.chooseToDict t (.cls c) with
    | (.attrs _ fields, tagged) => do
      let items ← toDictFields fields vs
      .ok (.dict (if tagged then Dict.set items (py"__type__") (.str (env.info c).name) else items))
    | (conv, _) => plainToDict conv (.obj c vs)
  | .dict items => do plainToDict (← env.chooseToDict t .dict).1 (.dict items)
  | .bool b => do plainToDict (← env.chooseToDict t (.prim .bool)).1 (.bool b)
  | .int n => do plainToDict (← env.chooseToDict t (.prim .int)).1 (.int n)
  | .float x => do plainToDict (← env.chooseToDict t (.prim .float)).1 (.float x)
  | .str s => do plainToDict (← env.chooseToDict t (.prim .str)).1 (.str s)
  | .none => do plainToDict (← env.chooseToDict t (.prim .none)).1 .none

/-- `ListConverter.to_dict`, `VarLenTupleConverter.to_dict` (dict2object.py:118-119, 139-140). -/
def toDictAll (t : Ty) : List Val → Res (List Val)
  | [] => .ok []
  | v :: vs => do .ok ((← toDict t v) :: (← toDictAll t vs))

/-- `TupleConverter.to_dict` (dict2object.py:159-160). -/
def toDictZip (ts : List Ty) : List Val → Res (List Val)
  | [] => .ok []
  | v :: vs => match ts with
    | [] => .ok []
    | t :: ts => do .ok ((← toDict t v) :: (← toDictZip ts vs))

/-- `AttrsClassConverter.to_dict` (dict2object.py:241-247) over the fields and their values. -/
def toDictFields (fields : List Field) : List (Str × Val) → Res (List (Str × Val))
  | [] => .ok []
  | (_, v) :: vs => match fields with
    | [] => .ok []
    | f :: fs => if keepsField f v then do .ok ((f.name, ← toDict f.type v) :: (← toDictFields fs vs)) else toDictFields fs vs
end

/-! ## To objects -/

/-- The converter that converts plain data, given its type and what it has as `__type__`: `UnionConverter.to_object` and
`DictDisambiguator.to_object` (dict2object.py:283-287, 334-337). -/
def chooseToObject (t : Ty) (type : PyType) (tag : Option Val) : Res Conv := do
  match ← env.create t with
  | .union _ toObj dicts =>
    if type = .dict then
      if dicts.toObj.length = 1 ∨ tag.isNone then
        match dicts.default with
        | some m => env.single m
        | none => .error .assertionError
      else match tag with
        | some (.str name) => match dicts.toObj.get? name with
          | some m => env.single m
          | none => .error .keyError
        | _ => .error .keyError
    else match toObj.get? type with
      | some m => env.single m
      | none => .error .keyError
  | conv => .ok conv

/-- The name of the argument of `__init__` for an attribute, as attrs makes it: `name.lstrip('_')`. -/
def initArg (name : Str) : Str := name.dropWhile (· = '_')

/-- `if k[0] == '_': k = k[1:]` (dict2object.py:236-237). -/
def keywordOf (k : Str) : Str :=
  match k with
  | '_' :: rest => rest
  | _ => k

/-- The values that `__init__` begins with. -/
def initValues (c : ClassId) (kwargs : Dict Str Val) : List Field → Res (List (Str × Val))
  | [] => .ok []
  | f :: fs =>
    if f.init then
      match (kwargs.get? (initArg f.name)).or (f.default.or (env.factory c f.name)) with
      | some v => do .ok ((f.name, v) :: (← initValues c kwargs fs))
      | none => .error .typeError
    else initValues c kwargs fs

/-- `the_class(**kwargs)` (dict2object.py:239). -/
def callClass (c : ClassId) (fields : List Field) (kwargs : Dict Str Val) : Res Val :=
  if kwargs.keys.all fun k => fields.any fun f => f.init && initArg f.name = k then do
    let values ← env.initValues c kwargs fields
    .ok (.obj c (← env.finish c values))
  else .error .typeError

/-- Plain data that only `NoopConverter` converts. -/
def plainToObject (conv : Conv) (v : Val) : Res Val :=
  match conv with
  | .noop _ => .ok v
  | _ => .error .typeError

/-- A comprehension over the characters of a string or the keys of a dictionary. -/
def eachText (f : Str → Res Val) : List Str → Res (List Val)
  | [] => .ok []
  | s :: ss => do .ok ((← f s) :: (← eachText f ss))

mutual
/-- The `to_object` methods (dict2object.py:92, 115, 136, 156, 176, 203, 230, 283, 334) for a string. The converters of lists and tuples go over
its characters. -/
def textToObject (t : Ty) (s : Str) : Res Val :=
  match t with
  | .list u => do .ok (.list (← eachText (fun x => textToObject u x) (s.map fun c => [c])))
  | .tupleVar u => do .ok (.tuple (← eachText (fun x => textToObject u x) (s.map fun c => [c])))
  | .tuple us => do .ok (.tuple (← textsToObject us (s.map fun c => [c])))
  | t => do
    match ← env.chooseToObject t (.prim .str) none with
    | .enum c ms => if s ∈ ms then .ok (.enum c s) else .error .keyError
    | .typeName types => match types.get? s with
      | some r => .ok (.type r)
      | none => .error .keyError
    | conv => plainToObject conv (.str s)

/-- `TupleConverter.to_object` (dict2object.py:156-157) over the characters of a string or the keys of a dictionary. -/
def textsToObject (ts : List Ty) (ss : List Str) : Res (List Val) :=
  match ts with
  | [] => .ok []
  | t :: ts => match ss with
    | [] => .ok []
    | s :: ss => do .ok ((← textToObject t s) :: (← textsToObject ts ss))
end

mutual
/-- The `to_object` methods (dict2object.py:92, 115, 136, 156, 176, 203, 230, 283, 334). Data that a converter raises some exception for is
refused with a TypeError or KeyError here. -/
def toObject (t : Ty) : Val → Res Val
  | .list vs => do
    match ← env.chooseToObject t .list none with
    | .list u => do .ok (.list (← toObjectAll u vs))
    | .tupleVar u => do .ok (.tuple (← toObjectAll u vs))
    | .tuple us => do .ok (.tuple (← toObjectZip us vs))
    | conv => plainToObject conv (.list vs)
  | .str s => env.textToObject t s
  | .dict items => do
    match ← env.chooseToObject t .dict (Dict.get? items (py"__type__")) with
    | .attrs c fields => do
      let kwargs ← toObjectItems (subconverters fields) items
      env.callClass c fields (Dict.update [] kwargs)
    | .list u => do .ok (.list (← eachText (env.textToObject u) (items.map (·.1))))
    | .tupleVar u => do .ok (.tuple (← eachText (env.textToObject u) (items.map (·.1))))
    | .tuple us => do .ok (.tuple (← env.textsToObject us (items.map (·.1))))
    | conv => plainToObject conv (.dict items)
  | .tuple vs => do
    match ← env.chooseToObject t .tuple none with
    | .list u => do .ok (.list (← toObjectAll u vs))
    | .tupleVar u => do .ok (.tuple (← toObjectAll u vs))
    | .tuple us => do .ok (.tuple (← toObjectZip us vs))
    | conv => plainToObject conv (.tuple vs)
  | .enum c n => do plainToObject (← env.chooseToObject t (.cls c) none) (.enum c n)
  | .type r => do plainToObject (← env.chooseToObject t .type none) (.type r)
  | .obj c vs => do plainToObject (← env.chooseToObject t (.cls c) none) (.obj c vs)
  | .bool b => do plainToObject (← env.chooseToObject t (.prim .bool) none) (.bool b)
  | .int n => do plainToObject (← env.chooseToObject t (.prim .int) none) (.int n)
  | .float x => do plainToObject (← env.chooseToObject t (.prim .float) none) (.float x)
  | .none => do plainToObject (← env.chooseToObject t (.prim .none) none) .none

/-- `ListConverter.to_object`, `VarLenTupleConverter.to_object` (dict2object.py:115-116, 136-137). -/
def toObjectAll (t : Ty) : List Val → Res (List Val)
  | [] => .ok []
  | v :: vs => do .ok ((← toObject t v) :: (← toObjectAll t vs))

/-- `TupleConverter.to_object` (dict2object.py:156-157). -/
def toObjectZip (ts : List Ty) : List Val → Res (List Val)
  | [] => .ok []
  | v :: vs => match ts with
    | [] => .ok []
    | t :: ts => do .ok ((← toObject t v) :: (← toObjectZip ts vs))

/-- The loop of `AttrsClassConverter.to_object` (dict2object.py:231-238): what is set in `converted_data`, in order. -/
def toObjectItems (subs : Dict Str Ty) : List (Str × Val) → Res (List (Str × Val))
  | [] => .ok []
  | (k, v) :: vs =>
    if k = py"__type__" then toObjectItems subs vs
    else match subs.get? k with
      | none => .error .keyError
      | some t => do .ok ((keywordOf k, ← toObject t v) :: (← toObjectItems subs vs))
end

end Env

end Verif
