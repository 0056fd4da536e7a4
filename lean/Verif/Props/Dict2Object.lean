import Verif.Model.Classes
import Verif.Proofs.Dict2Object

/-! # Conversion to plain data and back: C38, C39, C55 -/

namespace Verif.Props

open Spec

/-! ## Round trip -/

/-- C38. If no two members of a union anywhere in the type can be confused, every value of an accepted type is converted to plain data,
and what comes back is equal to it. -/
theorem round_trip_partial {env : Env} (hs : Sound env) (hb : Bounded env) (hf : MakesEqual env) {t : Ty} (ha : Accepted env t)
    (hc : ∀ u, Reach env t u → Clear env u) {v : Val} (hv : HasType env t v) :
    ∃ p w, env.toDict t v = .ok p ∧ PlainData p ∧ env.toObject t p = .ok w ∧ Equal v w :=
  roundtrip hs hb (kept_equal hf) v t (accepted_reach hs hb ha) hc hv

/-- C38. If moreover values equal to the defaults are the defaults, exactly the same value comes back. -/
theorem round_trip_same_partial {env : Env} (hs : Sound env) (hb : Bounded env) (hd : ExactDefaults env) {t : Ty} (ha : Accepted env t)
    (hc : ∀ u, Reach env t u → Clear env u) {v : Val} (hv : HasType env t v) :
    ∃ p, env.toDict t v = .ok p ∧ PlainData p ∧ env.toObject t p = .ok v := by
  obtain ⟨p, w, h1, h2, h3, rfl⟩ := roundtrip hs hb (kept_eq hd) v t (accepted_reach hs hb ha) hc hv
  exact ⟨p, h1, h2, h3⟩

/-- C38. Equal means equal for Python. -/
theorem equal_values (v w : Val) : pyEq v w = true ↔ Equal v w := pyEq_iff v w

/-- C38. So different values have different data. -/
theorem same_data_same_value {env : Env} (hs : Sound env) (hb : Bounded env) (hd : ExactDefaults env) {t : Ty} (ha : Accepted env t)
    (hc : ∀ u, Reach env t u → Clear env u) {v w : Val} (hv : HasType env t v) (hw : HasType env t w)
    (h : env.toDict t v = env.toDict t w) : v = w := by
  obtain ⟨p, h1, -, h2⟩ := round_trip_same_partial hs hb hd ha hc hv
  obtain ⟨q, h3, -, h4⟩ := round_trip_same_partial hs hb hd ha hc hw
  rw [h1, h3] at h
  cases h
  rw [h2] at h4
  cases h4
  rfl

/-- C38. No condition beyond being accepted is needed for unions of simple types, lists and classes with attributes. -/
theorem round_trip_kinds_partial {env : Env} (hs : Sound env) (hb : Bounded env) (hf : MakesEqual env) {t : Ty} (ha : Accepted env t)
    (hk : ∀ u, Reach env t u → (∀ m, Member env u m → m = u) ∨ ∀ m, Member env u m → KeepsKind env m)
    (ht : ∀ u ts, Reach env t u → u ≠ .typeOf ts) {v : Val} (hv : HasType env t v) :
    ∃ p w, env.toDict t v = .ok p ∧ PlainData p ∧ env.toObject t p = .ok w ∧ Equal v w := by
  refine round_trip_partial hs hb hf ha ?_ hv
  intro u hu
  obtain ⟨conv, hconv⟩ := accepted_reach hs hb ha u hu
  refine ⟨?_, ?_⟩
  · intro a b ha' hb' hc
    rcases hk u hu with h | h
    · exact hc.1 ((h a ha').trans (h b hb').symm)
    · exact keeps_refused hs hb hconv ha' hb' (h a ha') (h b hb') hc
  · intro ts hm
    rcases hk u hu with h | h
    · exact absurd (h _ hm).symm (ht u ts hu)
    · cases h _ hm

/-- A program with an enum, a class with a subclass, a class of the same name as another, and a class with an attribute that begins with
two underscores. -/
def sampleClasses : List (ClassId × ClassInfo) :=
  [(py"Color", { name := py"Color", kind := .enum [py"RED", py"GREEN"] }),
   (py"Shade", { name := py"Shade", kind := .enum [py"RED", py"GREY"] }),
   (py"Base", { name := py"Base", kind := .attrs [{ name := py"n", type := .prim .int }], subclasses := [py"Sub"] }),
   (py"Sub", { name := py"Sub", kind := .attrs [{ name := py"n", type := .prim .int },
      { name := py"_more", type := .union [.tupleVar (.cls (py"Base")), .prim .none], default := some .none }] }),
   (py"other.Base", { name := py"Base", kind := .attrs [] }),
   (py"Flag", { name := py"Flag", kind := .attrs [{ name := py"f", type := .union [.prim .bool, .prim .int], default := some (.int 0) }] })]

/-- It as a program. -/
def sampleClassEnv : Env where
  info := tableInfo sampleClasses
  depth := 1

/-- The conditions hold. -/
theorem sampleClassEnv_ok : Sound sampleClassEnv ∧ Bounded sampleClassEnv ∧ MakesEqual sampleClassEnv := by
  obtain ⟨h1, h2⟩ := sound_of_test (env := sampleClassEnv) (table := sampleClasses) rfl (Nat.le_refl 1) (by decide +kernel)
  refine ⟨h1, h2, ?_⟩
  intro c vs ws as h hf
  cases hf
  exact ⟨ws, rfl, h⟩

/-- `Sub(n=3, _more=(Base(n=4), Sub(n=5)))`. -/
def sampleSub : Val := .obj (py"Sub") [(py"n", .int 3), (py"_more", .tuple
  [.obj (py"Base") [(py"n", .int 4)], .obj (py"Sub") [(py"n", .int 5), (py"_more", .none)]])]

/-- It is a value of the type `Base`. -/
theorem sampleSub_typed : HasType sampleClassEnv (.cls (py"Base")) sampleSub := by
  have int : ∀ n, HasType sampleClassEnv (.prim .int) (.int n) := fun n => .of (.self (by simp)) (.prim rfl)
  have base : HasType sampleClassEnv (.cls (py"Base")) (.obj (py"Base") [(py"n", .int 4)]) := by
    refine .of (.sub (.refl _)) (.obj (fs := [{ name := py"n", type := .prim .int }]) rfl rfl ?_ rfl)
    intro x hx _
    simp only [List.zip_cons_cons, List.zip_nil_right, List.mem_singleton] at hx
    rw [hx]
    exact int 4
  have sub : ∀ n more, HasType sampleClassEnv (.union [.tupleVar (.cls (py"Base")), .prim .none]) more →
      HasType sampleClassEnv (.cls (py"Base")) (.obj (py"Sub") [(py"n", .int n), (py"_more", more)]) := by
    intro n more hm
    refine .of (.sub (.step (.refl _) (show (py"Sub") ∈ [py"Sub"] by simp))) (.obj (fs := [{ name := py"n", type := .prim .int },
      { name := py"_more", type := .union [.tupleVar (.cls (py"Base")), .prim .none], default := some .none }]) rfl rfl ?_ rfl)
    intro x hx _
    simp only [List.zip_cons_cons, List.zip_nil_right, List.mem_cons, List.not_mem_nil, or_false] at hx
    rcases hx with rfl | rfl
    · exact int n
    · exact hm
  refine sub 3 _ (.of (.union (t := .tupleVar (.cls (py"Base"))) (by simp) (.self (by simp))) (.tupleVar ?_))
  intro v hv
  simp only [List.mem_cons, List.not_mem_nil, or_false] at hv
  rcases hv with rfl | rfl
  · exact base
  · exact sub 5 _ (.of (.union (t := .prim .none) (by simp) (.self (by simp))) (.prim rfl))

example : Accepted sampleClassEnv (.cls (py"Base")) ∧ (∀ u, Reach sampleClassEnv (.cls (py"Base")) u → Clear sampleClassEnv u) ∧
    HasType sampleClassEnv (.cls (py"Base")) sampleSub ∧ ¬ Accepted sampleClassEnv (.union [.cls (py"Base"), .cls (py"other.Base")]) := by
  obtain ⟨h1, h2⟩ := ready_of_test (n := 10) sampleClassEnv_ok.1 sampleClassEnv_ok.2.1 (t := .cls (py"Base")) (by decide +kernel)
  refine ⟨h1, h2, sampleSub_typed, ?_⟩
  intro h
  obtain ⟨conv, h⟩ := accepted_reach sampleClassEnv_ok.1 sampleClassEnv_ok.2.1 h _ .refl
  refine keeps_refused sampleClassEnv_ok.1 sampleClassEnv_ok.2.1 h (a := .cls (py"Base")) (b := .cls (py"other.Base"))
    (.union (by simp) (.self (by simp))) (.union (t := .cls (py"other.Base")) (by simp) (.self (by simp)))
    (.attrs (fs := [{ name := py"n", type := .prim .int }]) rfl) (.attrs (fs := []) rfl) ⟨by decide, rfl, ?_⟩
  intro c d hc hd _
  cases hc
  cases hd
  rfl

/-- C38. The full statement is false: in a union of an enum and `str`, which is accepted, the member of the enum comes back as its
name. -/
theorem enum_comes_back_as_name : Accepted sampleClassEnv (.union [.cls (py"Color"), .prim .str]) ∧
    HasType sampleClassEnv (.union [.cls (py"Color"), .prim .str]) (.enum (py"Color") (py"RED")) ∧
    sampleClassEnv.toDict (.union [.cls (py"Color"), .prim .str]) (.enum (py"Color") (py"RED")) = .ok (.str (py"RED")) ∧
    sampleClassEnv.toObject (.union [.cls (py"Color"), .prim .str]) (.str (py"RED")) = .ok (.str (py"RED")) ∧
    ¬ Equal (.enum (py"Color") (py"RED")) (.str (py"RED")) :=
  ⟨⟨5, _, rfl⟩, .of (.union (t := .cls (py"Color")) (by simp) (.self (by simp))) (.enum (ms := [py"RED", py"GREEN"]) rfl (by simp)),
    rfl, rfl, fun h => absurd ((pyEq_iff _ _).2 h) (by decide +kernel)⟩

/-- C38. Also false for classes of the same name in `Type[…]`: another class comes back. -/
theorem class_comes_back_as_other : Accepted sampleClassEnv (.typeOf [.cls (py"Base"), .cls (py"other.Base")]) ∧
    HasType sampleClassEnv (.typeOf [.cls (py"Base"), .cls (py"other.Base")]) (.type (.user (py"Base"))) ∧
    sampleClassEnv.toDict (.typeOf [.cls (py"Base"), .cls (py"other.Base")]) (.type (.user (py"Base"))) = .ok (.str (py"Base")) ∧
    sampleClassEnv.toObject (.typeOf [.cls (py"Base"), .cls (py"other.Base")]) (.str (py"Base")) = .ok (.type (.user (py"other.Base"))) :=
  ⟨⟨5, _, rfl⟩, .of (.self (by simp)) (.type (.user (c := py"Base") (by simp) (.refl _))), rfl, rfl⟩

/-- A program with a class with an attribute `__a`. -/
def underscoreEnv : Env where
  info := tableInfo [(py"C", { name := py"C", kind := .attrs [{ name := py"__a", type := .prim .int }] })]
  depth := 1

/-- C38. Also false for attributes that begin with two underscores: the data of an object cannot be converted back. -/
theorem underscores_do_not_come_back : Accepted underscoreEnv (.cls (py"C")) ∧
    HasType underscoreEnv (.cls (py"C")) (.obj (py"C") [(py"__a", .int 1)]) ∧
    underscoreEnv.toDict (.cls (py"C")) (.obj (py"C") [(py"__a", .int 1)]) = .ok (.dict [(py"__a", .int 1)]) ∧
    underscoreEnv.toObject (.cls (py"C")) (.dict [(py"__a", .int 1)]) = .error .typeError := by
  refine ⟨⟨5, _, rfl⟩, .of (.self (by simp)) (.obj (fs := [{ name := py"__a", type := .prim .int }]) rfl rfl ?_ rfl), rfl, rfl⟩
  intro x hx _
  simp only [List.zip_cons_cons, List.zip_nil_right, List.mem_singleton] at hx
  rw [hx]
  exact .of (.self (by simp)) (.prim rfl)

/-- C38. A bool, which is an int in Python, is refused by a union of `int` and others. -/
theorem bool_is_no_int_in_union : sampleClassEnv.toDict (.union [.prim .int, .prim .str]) (.bool true) = .error .typeError := rfl

/-- C38. Equal is not the same: `False` comes back as the default `0`. -/
theorem false_comes_back_as_zero : HasType sampleClassEnv (.cls (py"Flag")) (.obj (py"Flag") [(py"f", .bool false)]) ∧
    sampleClassEnv.toDict (.cls (py"Flag")) (.obj (py"Flag") [(py"f", .bool false)]) = .ok (.dict []) ∧
    sampleClassEnv.toObject (.cls (py"Flag")) (.dict []) = .ok (.obj (py"Flag") [(py"f", .int 0)]) := by
  refine ⟨.of (.self (by simp)) (.obj (fs := [{ name := py"f", type := .union [.prim .bool, .prim .int], default := some (.int 0) }])
    rfl rfl ?_ rfl), ?_, rfl⟩
  · intro x hx _
    simp only [List.zip_cons_cons, List.zip_nil_right, List.mem_singleton] at hx
    rw [hx]
    exact .of (.union (t := .prim .bool) (by simp) (.self (by simp))) (.prim rfl)
  · rfl

/-! ## Refusal -/

/-- C39. A union is refused, whatever the order of its members, if it has two members that cannot be told apart in plain data and
are simple types, lists or classes with attributes. The full statement has no condition on the members. -/
theorem ambiguous_refused_partial {env : Env} (hs : Sound env) (hb : Bounded env) {t a b : Ty} (ha : Member env t a) (hb' : Member env t b)
    (hc : Confusable env a b) (hka : KeepsKind env a) (hkb : KeepsKind env b) : ¬ Accepted env t := by
  intro h
  obtain ⟨conv, hconv⟩ := accepted_reach hs hb h t .refl
  exact keeps_refused hs hb hconv ha hb' hka hkb hc

/-- C39. Exactly when the union itself is not refused: all members (in order, with the classes below them) can be converted; no class
has the same name as another; and no member becomes the type of data that the values of an earlier member are of. -/
theorem accepted_iff {env : Env} (ts : List Ty) : (∃ conv, env.create (.union ts) = .ok conv) ↔
    (∀ m ∈ env.possibleTypes ts, ∃ conv, env.single m = .ok conv) ∧
    ((env.possibleTypes ts).Pairwise fun a b => plainType env a ≠ .dict → plainType env b ≠ .dict → plainType env b ≠ valueType a) ∧
    (env.possibleTypes ts).Pairwise fun a b => ∀ c d, a = .cls c → b = .cls d → plainType env a = .dict → plainType env b = .dict →
      (env.info c).name ≠ (env.info d).name :=
  setupMulti_iff ts

example : Member sampleClassEnv (.union [.list (.prim .int), .list (.prim .str)]) (.list (.prim .int)) ∧
    Member sampleClassEnv (.union [.list (.prim .int), .list (.prim .str)]) (.list (.prim .str)) ∧
    Confusable sampleClassEnv (.list (.prim .int)) (.list (.prim .str)) ∧
    KeepsKind sampleClassEnv (.list (.prim .int)) ∧ KeepsKind sampleClassEnv (.list (.prim .str)) :=
  ⟨.union (by simp) (.self (by simp)), .union (t := .list (.prim .str)) (by simp) (.self (by simp)), ⟨by decide, rfl, by simp⟩, .list _, .list _⟩

/-- A type that is not accepted at the top. -/
theorem not_accepted {env : Env} (hs : Sound env) (hb : Bounded env) {t : Ty} {e : Err} (h : env.create t = .error e) : ¬ Accepted env t := by
  intro ha
  obtain ⟨conv, hc⟩ := accepted_reach hs hb ha t .refl
  rw [h] at hc
  cases hc

/-- C39. The full statement is false: an enum and `str` cannot be told apart; the union is refused if `str` comes first and accepted
if the enum comes first. -/
theorem enum_str_order : Confusable sampleClassEnv (.cls (py"Color")) (.prim .str) ∧
    Accepted sampleClassEnv (.union [.cls (py"Color"), .prim .str]) ∧ ¬ Accepted sampleClassEnv (.union [.prim .str, .cls (py"Color")]) :=
  ⟨⟨by decide, rfl, by simp⟩, ⟨5, _, rfl⟩, not_accepted sampleClassEnv_ok.1 sampleClassEnv_ok.2.1 (e := .typeError) rfl⟩

/-- C39. Two enums are accepted in any order, and members of both have the same data. -/
theorem two_enums_accepted : Confusable sampleClassEnv (.cls (py"Color")) (.cls (py"Shade")) ∧
    Accepted sampleClassEnv (.union [.cls (py"Color"), .cls (py"Shade")]) ∧ Accepted sampleClassEnv (.union [.cls (py"Shade"), .cls (py"Color")]) ∧
    sampleClassEnv.toDict (.union [.cls (py"Color"), .cls (py"Shade")]) (.enum (py"Color") (py"RED")) =
      sampleClassEnv.toDict (.union [.cls (py"Color"), .cls (py"Shade")]) (.enum (py"Shade") (py"RED")) :=
  ⟨⟨by decide, rfl, fun _ _ _ _ h => absurd h (by decide)⟩, ⟨5, _, rfl⟩, ⟨5, _, rfl⟩, rfl⟩

/-- C39. Two kinds of tuples are accepted in any order; a tuple and a list are accepted if the tuple comes first. -/
theorem tuples_accepted : Confusable sampleClassEnv (.tupleVar (.prim .int)) (.tupleVar (.prim .str)) ∧
    Accepted sampleClassEnv (.union [.tupleVar (.prim .int), .tupleVar (.prim .str)]) ∧
    Accepted sampleClassEnv (.union [.tupleVar (.prim .str), .tupleVar (.prim .int)]) ∧
    Confusable sampleClassEnv (.tupleVar (.prim .int)) (.list (.prim .int)) ∧
    Accepted sampleClassEnv (.union [.tupleVar (.prim .int), .list (.prim .int)]) ∧
    ¬ Accepted sampleClassEnv (.union [.list (.prim .int), .tupleVar (.prim .int)]) :=
  ⟨⟨by decide, rfl, by simp⟩, ⟨5, _, rfl⟩, ⟨5, _, rfl⟩, ⟨by decide, rfl, by simp⟩, ⟨5, _, rfl⟩,
    not_accepted sampleClassEnv_ok.1 sampleClassEnv_ok.2.1 (e := .typeError) rfl⟩

/-! ## The classes of the project -/

/-- The conditions on the classes hold. -/
theorem hunLaw_sound (finish : ClassId → List (Str × Val) → Res (List (Str × Val))) : Sound (hunLawEnv finish) ∧ Bounded (hunLawEnv finish) :=
  sound_of_test (table := hunLawTable) rfl (Nat.le_refl 1) (by decide +kernel)

/-- The converters are built and no members of unions can be confused. -/
theorem hunLaw_ready (finish : ClassId → List (Str × Val) → Res (List (Str × Val))) {t : Ty}
    (h : readyTest (hunLawEnv fun _ vs => .ok vs) 40 t = true) :
    Accepted (hunLawEnv finish) t ∧ ∀ u, Reach (hunLawEnv finish) t u → Clear (hunLawEnv finish) u :=
  ready_of_test (hunLaw_sound finish).1 (hunLaw_sound finish).2
    (n := 40) ((readyTest_congr (env := hunLawEnv finish) (env' := hunLawEnv fun _ vs => .ok vs) rfl rfl 40 t).trans h)

/-- C55. Every Act that has values of the declared types is written as plain data, and an equal Act comes back, whatever `__init__` computes
for the other attributes, as long as it computes equal ones from equal ones. -/
theorem act_round_trip {finish : ClassId → List (Str × Val) → Res (List (Str × Val))} (hf : MakesEqual (hunLawEnv finish)) {v : Val}
    (hv : HasType (hunLawEnv finish) (.cls (py"Act")) v) :
    ∃ p w, (hunLawEnv finish).toDict (.cls (py"Act")) v = .ok p ∧ PlainData p ∧ (hunLawEnv finish).toObject (.cls (py"Act")) p = .ok w ∧
      Equal v w := by
  obtain ⟨h1, h2⟩ := hunLaw_ready finish (t := .cls (py"Act")) (by decide +kernel)
  exact round_trip_partial (hunLaw_sound finish).1 (hunLaw_sound finish).2 hf h1 h2 hv

/-- C55. The same for the raw texts of acts. -/
theorem raw_act_round_trip {finish : ClassId → List (Str × Val) → Res (List (Str × Val))} (hf : MakesEqual (hunLawEnv finish)) {v : Val}
    (hv : HasType (hunLawEnv finish) (.cls (py"MagyarKozlonyLawRawText")) v) :
    ∃ p w, (hunLawEnv finish).toDict (.cls (py"MagyarKozlonyLawRawText")) v = .ok p ∧ PlainData p ∧
      (hunLawEnv finish).toObject (.cls (py"MagyarKozlonyLawRawText")) p = .ok w ∧ Equal v w := by
  obtain ⟨h1, h2⟩ := hunLaw_ready finish (t := .cls (py"MagyarKozlonyLawRawText")) (by decide +kernel)
  exact round_trip_partial (hunLaw_sound finish).1 (hunLaw_sound finish).2 hf h1 h2 hv

/-- C55. The same for the lines of a PDF that are stored in the cache. -/
theorem pdf_round_trip {finish : ClassId → List (Str × Val) → Res (List (Str × Val))} (hf : MakesEqual (hunLawEnv finish)) {v : Val}
    (hv : HasType (hunLawEnv finish) (.cls (py"PdfOfLines")) v) :
    ∃ p w, (hunLawEnv finish).toDict (.cls (py"PdfOfLines")) v = .ok p ∧ PlainData p ∧ (hunLawEnv finish).toObject (.cls (py"PdfOfLines")) p = .ok w ∧
      Equal v w := by
  obtain ⟨h1, h2⟩ := hunLaw_ready finish (t := .cls (py"PdfOfLines")) (by decide +kernel)
  exact round_trip_partial (hunLaw_sound finish).1 (hunLaw_sound finish).2 hf h1 h2 hv

/-- What `__init__` adds for an Act without articles (structure.py:686-696). -/
def noArticles (c : ClassId) (vs : List (Str × Val)) : Res (List (Str × Val)) :=
  .ok (if c = py"Act" then vs ++ [(py"articles", .tuple []), (py"articles_map", .dict []), (py"is_semantic_parsed", .bool true)] else vs)

/-- It computes equal values from equal ones. -/
theorem noArticles_equal : MakesEqual (hunLawEnv noArticles) := by
  intro c vs ws as h hf
  cases hf
  refine ⟨_, rfl, ?_⟩
  by_cases hc : c = py"Act"
  · simp only [if_pos hc]
    clear hc
    induction h with
    | nil => exact .cons ⟨rfl, .same _⟩ (.cons ⟨rfl, .same _⟩ (.cons ⟨rfl, .same _⟩ .nil))
    | cons h _ ih => exact .cons h ih
  · simpa only [if_neg hc] using h

/-- An Act with one book, published on 2020-02-03. -/
def actWithBook : Val := .obj (py"Act")
  [(py"identifier", .str (py"2020. évi II. törvény")),
   (py"publication_date", .obj (py"Date") [(py"year", .int 2020), (py"month", .int 2), (py"day", .int 3)]),
   (py"subject", .str (py"a példáról")), (py"preamble", .str []),
   (py"children", .tuple [.obj (py"Book") [(py"identifier", .str (py"1")), (py"title", .str (py"ELSŐ KÖNYV"))]]),
   (py"articles", .tuple []), (py"articles_map", .dict []), (py"is_semantic_parsed", .bool true)]

example : HasType (hunLawEnv noArticles) (.cls (py"Act")) actWithBook := by
  have str : ∀ s, HasType (hunLawEnv noArticles) (.prim .str) (.str s) := fun s => .of (.self (by simp)) (.prim rfl)
  have int : ∀ n, HasType (hunLawEnv noArticles) (.prim .int) (.int n) := fun n => .of (.self (by simp)) (.prim rfl)
  refine .of (.self (by simp)) (.obj (fs := _) rfl rfl ?_ rfl)
  intro x hx hi
  simp only [List.zip_cons_cons, List.zip_nil_right, List.mem_cons, List.not_mem_nil, or_false] at hx
  rcases hx with rfl | rfl | rfl | rfl | rfl | rfl | rfl | rfl
  · exact str _
  · refine .of (.self (by simp [Field.required])) (.obj (fs := _) rfl rfl ?_ rfl)
    intro x hx _
    simp only [List.zip_cons_cons, List.zip_nil_right, List.mem_cons, List.not_mem_nil, or_false] at hx
    rcases hx with rfl | rfl | rfl <;> exact int _
  · exact str _
  · exact str _
  · refine .of (.self (by simp [Field.required])) (.tupleVar ?_)
    intro v hv
    rw [List.mem_singleton] at hv
    subst hv
    refine .of (.union (t := .cls (py"StructuralElement")) (by simp) (.sub (.step (.refl _)
      (show (py"Book") ∈ [py"Book", py"Part", py"Title", py"Chapter", py"Subtitle"] by simp)))) (.obj (fs := _) rfl rfl ?_ rfl)
    intro x hx _
    simp only [structuralFields, List.zip_cons_cons, List.zip_nil_right, List.mem_cons, List.not_mem_nil, or_false] at hx
    rcases hx with rfl | rfl <;> exact str _
  all_goals cases hi

example : ∃ p, (hunLawEnv noArticles).toDict (.cls (py"Act")) actWithBook = .ok p ∧
    (hunLawEnv noArticles).toObject (.cls (py"Act")) p = .ok actWithBook := ⟨_, rfl, rfl⟩

/-- C55. Not the same object always: the margin `0.0` of a line comes back as `0`, because the default is an int. -/
theorem margin_comes_back_as_int :
    (hunLawEnv noArticles).toDict (.cls (py"IndentedLine")) (.obj (py"IndentedLine") [(py"_parts", .tuple []), (py"margin_right", .float 0),
      (py"content", .str []), (py"indent", .float 0), (py"bold", .bool false)]) = .ok (.dict [(py"_parts", .list [])]) ∧
    (hunLawEnv fun _ vs => .ok (vs ++ [(py"content", .str []), (py"indent", .float 0), (py"bold", .bool false)])).toObject
      (.cls (py"IndentedLine")) (.dict [(py"_parts", .list [])]) =
      .ok (.obj (py"IndentedLine") [(py"_parts", .tuple []), (py"margin_right", .int 0), (py"content", .str []), (py"indent", .float 0),
        (py"bold", .bool false)]) := ⟨rfl, rfl⟩

end Verif.Props
