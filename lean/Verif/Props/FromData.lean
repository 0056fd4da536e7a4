import Verif.Proofs.FromData
import Verif.Props.Dict2Object

/-! # What plain data is read as: C72 -/

namespace Verif.Props

open Spec

/-- C72. What is read from data as a value of a type is what the data says: it is taken for the class that it names, each attribute has the
value that the data has for it or else its default, and there is nothing in the data for attributes that the class does not have. -/
theorem data_read_as {env : Env} (hs : Sound env) (hb : Bounded env) {t : Ty} {d v : Val} (h : env.toObject t d = .ok v) : ReadAs env t d v :=
  read hs hb d t v h

/-- C72. If no two members of a union anywhere in the type can be confused, all plain data that says so is read as that, and
everything else is refused. -/
theorem data_read_iff {env : Env} (hs : Sound env) (hb : Bounded env) {t : Ty} (ha : Accepted env t) (hc : ∀ u, Reach env t u → Clear env u)
    {d : Val} (hd : PlainData d) (v : Val) : env.toObject t d = .ok v ↔ ReadAs env t d v :=
  ⟨read hs hb d t v, readable hs hb d hd t v fun u hu => ⟨accepted_reach hs hb ha u hu, hc u hu⟩⟩

/-- C72. An object that is read has only attributes of its class in the data, and each that has no default is there. -/
theorem attributes_read {env : Env} (hs : Sound env) (hb : Bounded env) {t : Ty} {items : List (Str × Val)} {c : ClassId} {vs : List (Str × Val)}
    (h : env.toObject t (.dict items) = .ok (.obj c vs)) :
    ∃ fs, (env.info c).kind = .attrs fs ∧ (∀ k ∈ items.map (·.1), k = py"__type__" ∨ ∃ f ∈ fs, f.init = true ∧ f.name = k) ∧
      ∀ f ∈ fs, f.init = true → f.default = none → env.factory c f.name = none → f.name ∈ items.map (·.1) := by
  cases read hs hb _ t _ h with
  | of hm h =>
    cases h with
    | obj hk known hn hf made =>
      rename_i fs as
      refine ⟨fs, hk, known, ?_⟩
      intro f hff hi hd hfac
      have hlen : (fs.filter (·.init)).length = as.length := by
        have := congrArg List.length hn
        simpa using this.symm
      obtain ⟨i, hi', he⟩ := List.getElem_of_mem (show f ∈ fs.filter (·.init) by simp [hff, hi])
      have hia : i < as.length := hlen ▸ hi'
      have hz : (f, as[i]) ∈ (fs.filter (·.init)).zip as := by
        have : ((fs.filter (·.init)).zip as)[i]'(by simp [List.length_zip]; omega) = (f, as[i]) := by
          rw [List.getElem_zip, he]
        rw [← this]
        exact List.getElem_mem _
      cases hf _ hz with
      | given hd' => exact List.mem_map.mpr ⟨_, hd', rfl⟩
      | default _ h =>
        simp only [hd, hfac] at h
        cases h

/-- C72. If more than one member of the type becomes a dictionary, the class of an object that is read is the one that the
data names, and data that names no member is refused. -/
theorem named_class_read {env : Env} (hs : Sound env) (hb : Bounded env) {t a b : Ty} {items : List (Str × Val)} {v tag : Val}
    (ha : Member env t a) (hb' : Member env t b) (hab : a ≠ b) (hda : plainType env a = .dict) (hdb : plainType env b = .dict)
    (htag : Dict.get? items (py"__type__") = some tag) (h : env.toObject t (.dict items) = .ok v) :
    ∃ c vs, v = .obj c vs ∧ Member env t (.cls c) ∧ tag = .str (env.info c).name := by
  cases read hs hb _ t _ h with
  | of hm h =>
    cases hm with
    | alone hal hmt =>
      exact absurd ((alone_member hal ha).trans (alone_member hal hb').symm) hab
    | kind _ _ hd => exact absurd rfl hd
    | only _ _ _ honly => exact absurd ((honly a ha hda).trans (honly b hb' hdb).symm) hab
    | named hm hk _ hc ht =>
      subst hc
      rw [show tagOf (.dict items) = some tag from htag] at ht
      cases ht
      cases h with
      | obj hk' known hn hf made => exact ⟨_, _, rfl, hm, rfl⟩
    | first _ _ _ _ ht =>
      rw [show tagOf (.dict items) = some tag from htag] at ht
      cases ht

/-- C72. A member of an enum that is read is one that the enum has, with the name that the data says. -/
theorem enum_name_read {env : Env} (hs : Sound env) (hb : Bounded env) {c : ClassId} {ms : List Str} (hk : (env.info c).kind = .enum ms)
    {d v : Val} (h : env.toObject (.cls c) d = .ok v) : ∃ n ∈ ms, d = .str n ∧ v = .enum c n := by
  cases read hs hb _ _ _ h with
  | of hm h =>
    have hal : Alone env (.cls c) := ⟨by simp, by rintro d hd; cases hd; exact hs.enums c ms hk⟩
    obtain rfl := alone_member hal (takenFor_member hm)
    cases h with
    | enum hk' hn =>
      rw [hk] at hk'
      cases hk'
      exact ⟨_, hn, rfl, rfl⟩
    | obj hk' =>
      rw [hk] at hk'
      cases hk'

/-- C72. For Acts: what is read is what the data says, and all data that says an Act is read. -/
theorem act_data_read (finish : ClassId → List (Str × Val) → Res (List (Str × Val))) {d : Val} (hd : PlainData d) (v : Val) :
    (hunLawEnv finish).toObject (.cls (py"Act")) d = .ok v ↔ ReadAs (hunLawEnv finish) (.cls (py"Act")) d v := by
  obtain ⟨h1, h2⟩ := hunLaw_ready finish (t := .cls (py"Act")) (by decide +kernel)
  exact data_read_iff (hunLaw_sound finish).1 (hunLaw_sound finish).2 h1 h2 hd v

/-- Data for a `Sub` in a list. -/
def sampleData : Val := .list [.dict [(py"__type__", .str (py"Sub")), (py"n", .int 3), (py"_more", .list [.dict [(py"n", .int 4)]])]]

example : sampleClassEnv.toObject (.list (.cls (py"Base"))) sampleData = .ok (.list [.obj (py"Sub") [(py"n", .int 3),
    (py"_more", .tuple [.obj (py"Base") [(py"n", .int 4)]])]]) := rfl

example : ReadAs sampleClassEnv (.list (.cls (py"Base"))) sampleData (.list [.obj (py"Sub") [(py"n", .int 3),
    (py"_more", .tuple [.obj (py"Base") [(py"n", .int 4)]])]]) := data_read_as sampleClassEnv_ok.1 sampleClassEnv_ok.2.1 rfl

example : Accepted sampleClassEnv (.list (.cls (py"Base"))) ∧
    (∀ u, Reach sampleClassEnv (.list (.cls (py"Base"))) u → Clear sampleClassEnv u) ∧ PlainData sampleData := by
  obtain ⟨h1, h2⟩ := ready_of_test (n := 10) (t := .list (.cls (py"Base"))) sampleClassEnv_ok.1 sampleClassEnv_ok.2.1 (by decide +kernel)
  refine ⟨h1, h2, .list ?_⟩
  intro v hv
  rw [List.mem_singleton] at hv
  subst hv
  refine .dict (by decide) ?_
  intro x hx
  simp only [List.mem_cons, List.not_mem_nil, or_false] at hx
  rcases hx with rfl | rfl | rfl
  · exact .str _
  · exact .int _
  · refine .list ?_
    intro v hv
    rw [List.mem_singleton] at hv
    subst hv
    refine .dict (by decide) ?_
    intro x hx
    rw [List.mem_singleton] at hx
    subst hx
    exact .int _

/-- C72. An attribute that the class does not have, a class that is not a member and a member that an enum does not have are refused. -/
theorem unknown_names_refused :
    sampleClassEnv.toObject (.cls (py"Base")) (.dict [(py"n", .int 4), (py"x", .int 4)]) = .error .keyError ∧
    sampleClassEnv.toObject (.cls (py"Base")) (.dict [(py"__type__", .str (py"Flag")), (py"n", .int 4)]) = .error .keyError ∧
    sampleClassEnv.toObject (.cls (py"Color")) (.str (py"BLUE")) = .error .keyError := ⟨rfl, rfl, rfl⟩

/-- C72. But what is read need not be a value of the type: data for simple types is not looked at. -/
theorem simple_data_unchecked : sampleClassEnv.toObject (.cls (py"Base")) (.dict [(py"n", .str (py"x"))]) =
      .ok (.obj (py"Base") [(py"n", .str (py"x"))]) ∧
    ¬ HasType sampleClassEnv (.cls (py"Base")) (.obj (py"Base") [(py"n", .str (py"x"))]) := by
  refine ⟨rfl, ?_⟩
  rintro ⟨-, h⟩
  cases h with
  | prim h => cases h
  | obj hk hn h made =>
    cases hk
    have := h _ (by simp; rfl) rfl
    obtain ⟨hm, h⟩ := this
    cases hm with
    | self => cases h with
      | prim h => cases h

/-- C72. Missing elements of a tuple are not noticed, and superfluous ones are dropped. -/
theorem tuple_length_unchecked : sampleClassEnv.toObject (.tuple [.prim .int, .prim .int]) (.list [.int 1]) = .ok (.tuple [.int 1]) ∧
    sampleClassEnv.toObject (.tuple [.prim .int]) (.list [.int 1, .int 2]) = .ok (.tuple [.int 1]) := ⟨rfl, rfl⟩

/-- C72. A string is read as the list of its characters, and a dictionary as the list of its keys. -/
theorem other_data_read_as_list : sampleClassEnv.toObject (.list (.prim .str)) (.str (py"ab")) = .ok (.list [.str (py"a"), .str (py"b")]) ∧
    sampleClassEnv.toObject (.tupleVar (.prim .str)) (.dict [(py"n", .int 1)]) = .ok (.tuple [.str (py"n")]) := ⟨rfl, rfl⟩

end Verif.Props
