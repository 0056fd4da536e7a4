import Verif.Spec.FromData
import Verif.Proofs.Dict2Object

/-! # What plain data is read as: proofs -/

namespace Verif

open Spec

/-! ## Which member is chosen -/

theorem unionTypes_alone {env : Env} (hs : Sound env) {t : Ty} (h : env.unionTypes t true = none) : Alone env t := by
  refine ⟨?_, ?_⟩
  · rintro ts rfl
    cases h
  · rintro c rfl
    rw [Env.unionTypes] at h
    cases hk : (env.info c).kind with
    | enum ms => exact hs.enums c ms hk
    | attrs fs =>
      rw [hk] at h
      cases hn : (env.info c).subclasses with
      | nil => rfl
      | cons a b => rw [hn] at h; cases h
    | plain =>
      rw [hk] at h
      cases hn : (env.info c).subclasses with
      | nil => rfl
      | cons a b => rw [hn] at h; cases h

theorem alone_unionTypes {env : Env} {t : Ty} (h : Alone env t) : env.unionTypes t true = none := by
  cases t with
  | union ts => exact absurd rfl (h.1 ts)
  | cls c =>
    rw [Env.unionTypes, h.2 c rfl]
    cases (env.info c).kind <;> rfl
  | _ => rfl

theorem find?_addNew (p : Ty → Bool) (ts : List Ty) (t : Ty) : (Env.addNew ts t).find? p = (ts ++ [t]).find? p := by
  unfold Env.addNew
  split
  · rename_i h
    rw [List.find?_append]
    cases hf : ts.find? p with
    | some x => rfl
    | none =>
      have := List.find?_eq_none.mp hf t h
      simp [this]
  · rfl

theorem find?_foldl_addNew (p : Ty → Bool) : ∀ (us ts : List Ty), (us.foldl Env.addNew ts).find? p = (ts ++ us).find? p
  | [], ts => by simp
  | u :: us, ts => by
    rw [List.foldl_cons, find?_foldl_addNew p us, List.find?_append, find?_addNew, ← List.find?_append]
    simp

theorem nodup_foldl_addNew : ∀ (us ts : List Ty), ts.Nodup → (us.foldl Env.addNew ts).Nodup
  | [], _, h => h
  | u :: us, ts, h => by
    refine nodup_foldl_addNew us _ ?_
    unfold Env.addNew
    split
    · exact h
    · rename_i hn
      rw [List.nodup_append]
      exact ⟨h, by simp, fun a ha b hb e => hn (by rw [List.mem_singleton] at hb; rw [← hb, ← e]; exact ha)⟩

/-- A type that does not become a dictionary has no members that do. -/
theorem getSubclasses_find {env : Env} (hs : Sound env) {t : Ty} (hu : ∀ ts, t ≠ .union ts) :
    (env.getSubclasses t).find? (fun x => plainType env x = .dict) = if plainType env t = .dict then some t else none := by
  cases t with
  | cls c =>
    have hh : ∃ l, env.getSubclasses (.cls c) = .cls c :: l := by
      unfold Env.getSubclasses
      cases env.depth with
      | zero => exact ⟨[], rfl⟩
      | succ n => exact ⟨_, rfl⟩
    by_cases hd : plainType env (.cls c) = .dict
    · obtain ⟨l, hl⟩ := hh
      rw [hl]
      simp [hd]
    · have hk : ∃ ms, (env.info c).kind = .enum ms := by
        cases hk : (env.info c).kind with
        | enum ms => exact ⟨ms, rfl⟩
        | attrs fs => simp [plainType, hk] at hd
        | plain => simp [plainType, hk] at hd
      obtain ⟨ms, hk⟩ := hk
      have hl : env.getSubclasses (.cls c) = [.cls c] := by
        unfold Env.getSubclasses
        cases env.depth with
        | zero => rfl
        | succ n => simp [Env.subclassesRec, hs.enums c ms hk]
      rw [hl]
      simp [hd]
  | union ts => exact absurd rfl (hu ts)
  | _ => simp [Env.getSubclasses, plainType]

theorem possibleTypes_find {env : Env} (hs : Sound env) {ts : List Ty} (hu : ∀ t ∈ ts, ∀ us, t ≠ .union us) :
    (env.possibleTypes ts).find? (fun x => plainType env x = .dict) = ts.find? (fun x => plainType env x = .dict) := by
  unfold Env.possibleTypes
  rw [find?_foldl_addNew, List.nil_append]
  induction ts with
  | nil => rfl
  | cons t ts ih =>
    rw [List.flatMap_cons, List.find?_append, getSubclasses_find hs (hu t (by simp)), ih fun x hx => hu x (by simp [hx])]
    by_cases hd : plainType env t = .dict
    · simp [hd]
    · simp [hd]

/-- The members of a type that becomes a union. -/
structure Unites (env : Env) (t : Ty) (us : List Ty) (s : Env.Collected) (d : DictDisambiguator) : Prop where
  nodup : us.Nodup
  create : env.create t = .ok (.union s.toDict s.toObj d)
  collects : Collects env us s
  disambiguates : Disambiguates env s.dictTypes d
  members : ∀ m, Member env t m ↔ m ∈ us
  first : ∀ m, d.default = some m ↔ FirstDict env t m ∧ plainType env m = .dict

theorem find?_split {α : Type} {p : α → Prop} [DecidablePred p] : ∀ {l : List α} {m : α}, l.find? (fun x => p x) = some m →
    ∃ before after, l = before ++ m :: after ∧ p m ∧ ∀ x ∈ before, ¬ p x
  | x :: l, m, h => by
    rw [List.find?_cons] at h
    by_cases hp : p x
    · simp only [hp, decide_true, Option.some.injEq] at h
      subst h
      exact ⟨[], l, rfl, hp, by simp⟩
    · simp only [hp, decide_false] at h
      obtain ⟨a, b, rfl, h1, h2⟩ := find?_split h
      refine ⟨x :: a, b, rfl, h1, ?_⟩
      intro y hy
      rcases List.mem_cons.mp hy with rfl | hy
      · exact hp
      · exact h2 y hy

theorem find?_of_split {α : Type} {p : α → Prop} [DecidablePred p] {m : α} (hm : p m) : ∀ {before after : List α}, (∀ x ∈ before, ¬ p x) →
    (before ++ m :: after).find? (fun x => p x) = some m
  | [], after, _ => by simp [hm]
  | x :: before, after, h => by
    have := find?_of_split hm (before := before) (after := after) fun y hy => h y (by simp [hy])
    simp [h x (by simp)]
    simpa using this

theorem find?_dictTypes {env : Env} (us : List Ty) :
    (((us.filter fun t => plainType env t = .dict).map fun t => (valueType t, t)).head?.map (·.2)) = us.find? (fun x => plainType env x = .dict) := by
  rw [List.head?_map, List.head?_filter]
  cases us.find? (fun x => plainType env x = .dict) <;> rfl

/-- A type is converted as it is, or is a union. -/
theorem create_cases {env : Env} (hs : Sound env) (hb : Bounded env) {t : Ty} {conv : Conv} (h : env.create t = .ok conv) :
    (Alone env t ∧ env.single t = .ok conv) ∨ (¬ Alone env t ∧ ∃ us s d, conv = .union s.toDict s.toObj d ∧ Unites env t us s d) := by
  rcases create_ok hs hb h with ⟨h1, -, h3⟩ | ⟨ts, s, d, hu, rfl, hco, hdi, hmem⟩
  · exact .inl ⟨unionTypes_alone hs h3, h1⟩
  · refine .inr ⟨fun ha => (by rw [alone_unionTypes ha] at hu; cases hu), _, s, d, rfl, nodup_foldl_addNew _ _ List.nodup_nil, h, hco, hdi, hmem, ?_⟩
    have nou : ∀ t ∈ ts, ∀ us, t ≠ .union us := by
      rintro t ht us rfl
      obtain ⟨_, hc⟩ := hco.singles (.union us) ((mem_possibleTypes ..).mpr ⟨_, ht, by simp [Env.getSubclasses]⟩)
      cases hc
    intro m
    rw [hdi.default, hco.dicts, find?_dictTypes, possibleTypes_find hs nou]
    cases t with
    | union ts' =>
      cases hu
      constructor
      · intro hf
        obtain ⟨a, b, rfl, h1, h2⟩ := find?_split (p := fun x => plainType env x = .dict) hf
        exact ⟨.union h1 h2, h1⟩
      · rintro ⟨hf, -⟩
        cases hf with
        | union hm hbefore => exact find?_of_split (p := fun x => plainType env x = .dict) hm hbefore
    | cls c =>
      have : ts = [.cls c] := by
        rw [Env.unionTypes] at hu
        cases hk : (env.info c).kind with
        | enum ms => rw [hk] at hu; cases hu
        | _ =>
          rw [hk] at hu
          simp only at hu
          split at hu
          · cases hu; rfl
          · cases hu
      subst this
      constructor
      · intro hf
        obtain ⟨a, b, he, h1, -⟩ := find?_split (p := fun x => plainType env x = .dict) hf
        have : Ty.cls c = m := by
          cases a with
          | nil => cases he; rfl
          | cons x a => simp at he
        subst this
        exact ⟨.cls c, h1⟩
      · rintro ⟨hf, hd⟩
        cases hf
        simp [hd]
    | _ => cases hu

/-- The converter that is chosen is that of the member that the data is taken for. -/
theorem takenFor_of_choose {env : Env} (hs : Sound env) (hb : Bounded env) {t : Ty} {d : Val} {conv : Conv}
    (h : env.chooseToObject t d.pyType (tagOf d) = .ok conv) : ∃ m, TakenFor env t m d ∧ env.single m = .ok conv := by
  unfold Env.chooseToObject at h
  obtain ⟨conv', hcr, h⟩ := resBind_ok h
  rcases create_cases hs hb hcr with ⟨ha, h1⟩ | ⟨-, us, s, dd, rfl, hu⟩
  · refine ⟨t, .alone ha rfl, ?_⟩
    cases conv' with
    | union a b c => exact (single_not_union h1).elim
    | _ => cases h; exact h1
  · simp only at h
    by_cases hd : d.pyType = .dict
    · rw [if_pos hd] at h
      split at h
      · rename_i hone
        cases hdef : dd.default with
        | none => rw [hdef] at h; cases h
        | some m =>
          rw [hdef] at h
          obtain ⟨hf, hm⟩ := (hu.first m).mp hdef
          have hmem : m ∈ us := by
            rw [hu.disambiguates.default, hu.collects.dicts, find?_dictTypes] at hdef
            exact List.mem_of_find?_eq_some hdef
          rcases hone with hone | hone
          · refine ⟨m, .only ((hu.members m).mpr hmem) hm hd ?_, h⟩
            intro n hn hnd
            rw [hu.disambiguates.lengthObj] at hone
            obtain ⟨x, hx⟩ := List.length_eq_one_iff.mp hone
            have mem : ∀ y ∈ us, plainType env y = .dict → (valueType y, y) ∈ s.dictTypes := by
              intro y hy hyd
              rw [hu.collects.dicts]
              exact List.mem_map.mpr ⟨y, by simp [hy, hyd], rfl⟩
            have h1 := mem n ((hu.members n).mp hn) hnd
            have h2 := mem m hmem hm
            rw [hx, List.mem_singleton] at h1 h2
            rw [← h2] at h1
            exact congrArg Prod.snd h1
          · refine ⟨m, .first ((hu.members m).mpr hmem) hm hd hf ?_, h⟩
            exact Option.isNone_iff_eq_none.mp hone
      · cases ht : tagOf d with
        | none => rw [ht] at h; cases h
        | some tag =>
          rw [ht] at h
          cases tag with
          | str name =>
            simp only at h
            cases hg : dd.toObj.get? name with
            | none => rw [hg] at h; cases h
            | some m =>
              rw [hg] at h
              obtain ⟨c, hc, hname⟩ := hu.disambiguates.toObj_in _ _ hg
              rw [hu.collects.dicts] at hc
              obtain ⟨y, hy, hxy⟩ := List.mem_map.mp hc
              obtain ⟨hy, hyd⟩ := List.mem_filter.mp hy
              simp only [Prod.mk.injEq] at hxy
              obtain ⟨hv, rfl⟩ := hxy
              have hyd : plainType env y = .dict := by simpa using hyd
              obtain ⟨c', fs, rfl, -, -⟩ := (single_types h).2.2.2 hyd
              cases hv
              exact ⟨_, .named ((hu.members _).mpr hy) hyd hd rfl (by rw [ht, hname]), h⟩
          | _ => cases h
    · rw [if_neg hd] at h
      cases hg : s.toObj.get? d.pyType with
      | none => rw [hg] at h; cases h
      | some m =>
        rw [hg] at h
        obtain ⟨h1, h2, -⟩ := hu.collects.toObj_in _ _ hg
        exact ⟨m, .kind ((hu.members m).mpr h1) h2 hd, h⟩

/-- The converter of the member that the data is taken for is chosen. -/
theorem choose_of_takenFor {env : Env} (hs : Sound env) (hb : Bounded env) {t m : Ty} {d : Val} (ha : ∃ conv, env.create t = .ok conv)
    (hc : Clear env t) (h : TakenFor env t m d) :
    ∃ conv, env.single m = .ok conv ∧ env.chooseToObject t d.pyType (tagOf d) = .ok conv := by
  obtain ⟨conv, hcr⟩ := ha
  rcases create_cases hs hb hcr with ⟨hal, h1⟩ | ⟨hnal, us, s, dd, rfl, hu⟩
  · have hmt : m = t := by
      have honly : ∀ n, Member env t n → n = t := by
        rcases create_ok hs hb hcr with ⟨-, h2, -⟩ | ⟨ts, -, -, hu, -⟩
        · exact h2
        · rw [alone_unionTypes hal] at hu; cases hu
      cases h with
      | alone _ hm => exact hm
      | kind hm => exact honly _ hm
      | only hm => exact honly _ hm
      | named hm => exact honly _ hm
      | first hm => exact honly _ hm
    subst hmt
    exact ⟨conv, h1, (choose_single hcr h1).2 _ _⟩
  · have dicts : ∀ y, Member env t y → plainType env y = .dict → (valueType y, y) ∈ s.dictTypes := by
      intro y hy hyd
      rw [hu.collects.dicts]
      exact List.mem_map.mpr ⟨y, by simp [(hu.members y).mp hy, hyd], rfl⟩
    have defaultOf : FirstDict env t m → plainType env m = .dict → dd.default = some m := fun h1 h2 => (hu.first m).mpr ⟨h1, h2⟩
    cases h with
    | alone hal => exact absurd hal hnal
    | kind hm hk hd =>
      obtain ⟨conv, hconv⟩ := hu.collects.singles m ((hu.members m).mp hm)
      refine ⟨conv, hconv, ?_⟩
      obtain ⟨m', hm'⟩ := hu.collects.toObj_has m ((hu.members m).mp hm) (hk ▸ hd)
      obtain ⟨a, b, -⟩ := hu.collects.toObj_in _ _ hm'
      have : m' = m := by
        refine Classical.byContradiction fun hne => hc.1 m' m ((hu.members m').mpr a) hm ⟨hne, b, ?_⟩
        intro _ _ _ _ h
        exact absurd (hk ▸ b ▸ h) hd
      subst this
      unfold Env.chooseToObject
      rw [hcr]
      show (if d.pyType = .dict then _ else _) = _
      rw [if_neg hd]
      rw [hk] at hm'
      simp only [hm']
      exact hconv
    | only hm hk hd honly =>
      obtain ⟨conv, hconv⟩ := hu.collects.singles m ((hu.members m).mp hm)
      refine ⟨conv, hconv, ?_⟩
      have hdef : dd.default = some m ∧ dd.toObj.length = 1 := by
        rw [hu.disambiguates.lengthObj, hu.disambiguates.default]
        have hin := dicts m hm hk
        have hall : ∀ x ∈ s.dictTypes, x = (valueType m, m) := by
          intro x hx
          rw [hu.collects.dicts] at hx
          obtain ⟨y, hy, rfl⟩ := List.mem_map.mp hx
          obtain ⟨hy, hyd⟩ := List.mem_filter.mp hy
          rw [honly y ((hu.members y).mpr hy) (by simpa using hyd)]
        cases hl : s.dictTypes with
        | nil => rw [hl] at hin; cases hin
        | cons x xs =>
          rw [hl] at hall
          have hx := hall x (by simp)
          refine ⟨by rw [hx]; rfl, ?_⟩
          cases xs with
          | nil => rfl
          | cons y ys =>
            exfalso
            have hy := hall y (by simp)
            have hnd : (s.dictTypes.map (·.2)).Nodup := by
              rw [hu.collects.dicts, List.map_map]
              simp only [Function.comp_def, List.map_id']
              exact hu.nodup.filter _
            rw [hl] at hnd
            simp only [List.map_cons, List.nodup_cons] at hnd
            exact hnd.1 (by simp [hx, hy])
      unfold Env.chooseToObject
      rw [hcr]
      show (if d.pyType = .dict then _ else _) = _
      rw [if_pos hd, if_pos (.inl hdef.2), hdef.1]
      exact hconv
    | named hm hk hd hmc ht =>
      rename_i c
      subst hmc
      obtain ⟨conv, hconv⟩ := hu.collects.singles _ ((hu.members _).mp hm)
      refine ⟨conv, hconv, ?_⟩
      have hin := dicts _ hm hk
      have hget := hu.disambiguates.toObj_has c _ hin
      unfold Env.chooseToObject
      rw [hcr]
      show (if d.pyType = .dict then _ else _) = _
      rw [if_pos hd]
      split
      · rename_i hone
        rcases hone with hone | hone
        · have hdef : dd.default = some (.cls c) := by
            rw [hu.disambiguates.lengthObj] at hone
            obtain ⟨x, hx⟩ := List.length_eq_one_iff.mp hone
            rw [hu.disambiguates.default]
            rw [hx] at hin ⊢
            rw [← List.mem_singleton.mp hin]
            rfl
          rw [hdef]
          exact hconv
        · rw [ht] at hone
          cases hone
      · rw [ht]
        simp only [hget]
        exact hconv
    | first hm hk hd hf ht =>
      obtain ⟨conv, hconv⟩ := hu.collects.singles m ((hu.members m).mp hm)
      refine ⟨conv, hconv, ?_⟩
      unfold Env.chooseToObject
      rw [hcr]
      show (if d.pyType = .dict then _ else _) = _
      rw [if_pos hd, if_pos (.inr (by rw [ht]; rfl)), defaultOf hf hk]
      exact hconv

/-! ## What the converters do -/

/-- What data consists of, if a loop can go over it. -/
def elementsOf : Val → Option (List Val)
  | .list ds | .tuple ds => some ds
  | .str s => some (s.map fun c => .str [c])
  | .dict items => some (items.map fun x => .str x.1)
  | _ => none

theorem elements_iff {d : Val} {ds : List Val} : Elements d ds ↔ elementsOf d = some ds := by
  constructor
  · intro h
    cases h <;> rfl
  · intro h
    cases d <;> cases h <;> constructor

/-- What a converter does with data. -/
def convertBy (env : Env) (d : Val) : Conv → Res Val
  | .noop _ => .ok d
  | .list u => match elementsOf d with
    | some ds => do .ok (.list (← env.toObjectAll u ds))
    | none => .error .typeError
  | .tupleVar u => match elementsOf d with
    | some ds => do .ok (.tuple (← env.toObjectAll u ds))
    | none => .error .typeError
  | .tuple us => match elementsOf d with
    | some ds => do .ok (.tuple (← env.toObjectZip us ds))
    | none => .error .typeError
  | .enum c ms => match d with
    | .str s => if s ∈ ms then .ok (.enum c s) else .error .keyError
    | _ => .error .typeError
  | .typeName types => match d with
    | .str s => match types.get? s with
      | some r => .ok (.type r)
      | none => .error .keyError
    | _ => .error .typeError
  | .attrs c fields => match d with
    | .dict items => do
      let kwargs ← env.toObjectItems (Env.subconverters fields) items
      env.callClass c fields (Dict.update [] kwargs)
    | _ => .error .typeError
  | .union .. => .error .typeError

theorem eachText_eq {env : Env} (u : Ty) : ∀ ss : List Str, Env.eachText (env.textToObject u) ss = env.toObjectAll u (ss.map .str)
  | [] => by rw [List.map_nil, Env.toObjectAll]; rfl
  | s :: ss => by rw [List.map_cons, Env.eachText, Env.toObjectAll, eachText_eq u ss, Env.toObject]

theorem textsToObject_eq {env : Env} : ∀ (us : List Ty) (ss : List Str), env.textsToObject us ss = env.toObjectZip us (ss.map .str)
  | [], [] => by rw [Env.textsToObject, List.map_nil, Env.toObjectZip]
  | [], s :: ss => by rw [Env.textsToObject, List.map_cons, Env.toObjectZip]
  | u :: us, [] => by rw [Env.textsToObject, List.map_nil, Env.toObjectZip]
  | u :: us, s :: ss => by rw [Env.textsToObject, List.map_cons, Env.toObjectZip, textsToObject_eq us ss, Env.toObject]

/-- What a converter is made for. -/
def MadeFor (env : Env) (m : Ty) : Conv → Prop
  | .noop p => m = .prim p
  | .list u => m = .list u
  | .tupleVar u => m = .tupleVar u
  | .tuple us => m = .tuple us
  | .enum c ms => m = .cls c ∧ (env.info c).kind = .enum ms
  | .typeName types => ∃ ts rs, m = .typeOf ts ∧ env.classesOf ts = .ok rs ∧ types = env.typeNames rs
  | .attrs c fs => m = .cls c ∧ (env.info c).kind = .attrs fs
  | .union .. => False

theorem single_inv {env : Env} {m : Ty} {conv : Conv} (h : env.single m = .ok conv) : MadeFor env m conv := by
  cases m with
  | typeOf ts =>
    rw [Env.single] at h
    obtain ⟨rs, hrs, h⟩ := resBind_ok h
    cases h
    exact ⟨ts, rs, rfl, hrs, rfl⟩
  | cls c =>
    rw [Env.single] at h
    cases hk : (env.info c).kind with
    | plain => rw [hk] at h; cases h
    | _ => rw [hk] at h; cases h; exact ⟨rfl, hk⟩
  | union ts => cases h
  | _ => cases h; rfl

/-- Lists and tuples are only expected of a string if nothing else can be. -/
theorem takenFor_str {env : Env} {t m : Ty} {s : Str} (h : TakenFor env t m (.str s)) (hm : plainType env m = .list) : m = t := by
  cases h with
  | alone _ h => exact h
  | kind _ hk => rw [hm] at hk; cases hk
  | only _ _ hd => cases hd
  | named _ _ hd => cases hd
  | first _ _ hd => cases hd

theorem toObject_eq {env : Env} {t m : Ty} {d : Val} {conv : Conv} (ht : TakenFor env t m d) (hm : env.single m = .ok conv)
    (h : env.chooseToObject t d.pyType (tagOf d) = .ok conv) : env.toObject t d = convertBy env d conv := by
  cases d with
  | str s =>
    rw [Env.toObject]
    cases t with
    | list u =>
      cases h
      rw [Env.textToObject, eachText_eq]
      simp [convertBy, elementsOf, Function.comp_def]
    | tupleVar u =>
      cases h
      rw [Env.textToObject, eachText_eq]
      simp [convertBy, elementsOf, Function.comp_def]
    | tuple us =>
      cases h
      rw [Env.textToObject, textsToObject_eq]
      simp [convertBy, elementsOf, Function.comp_def]
    | _ =>
      have h1 : ∀ u, conv ≠ .list u := by
        rintro u rfl
        obtain rfl : m = .list u := single_inv hm
        cases takenFor_str ht rfl
      have h2 : ∀ u, conv ≠ .tupleVar u := by
        rintro u rfl
        obtain rfl : m = .tupleVar u := single_inv hm
        cases takenFor_str ht rfl
      have h3 : ∀ us, conv ≠ .tuple us := by
        rintro us rfl
        obtain rfl : m = .tuple us := single_inv hm
        cases takenFor_str ht rfl
      rw [textToObject_eq h h1 h2 h3]
      cases conv with
      | list u => exact absurd rfl (h1 u)
      | tupleVar u => exact absurd rfl (h2 u)
      | tuple us => exact absurd rfl (h3 us)
      | union a b c => exact (single_not_union hm).elim
      | _ => rfl
  | list vs =>
    rw [Env.toObject, show env.chooseToObject t .list none = .ok conv from h]
    cases conv <;> rfl
  | tuple vs =>
    rw [Env.toObject, show env.chooseToObject t .tuple none = .ok conv from h]
    cases conv <;> rfl
  | dict items =>
    rw [Env.toObject, show env.chooseToObject t .dict (Dict.get? items (py"__type__")) = .ok conv from h]
    cases conv with
    | list u => simp [convertBy, elementsOf, eachText_eq, bind, Except.bind, Function.comp_def]
    | tupleVar u => simp [convertBy, elementsOf, eachText_eq, bind, Except.bind, Function.comp_def]
    | tuple us => simp [convertBy, elementsOf, textsToObject_eq, bind, Except.bind, Function.comp_def]
    | _ => rfl
  | bool b => rw [Env.toObject, show env.chooseToObject t (.prim .bool) none = .ok conv from h]; cases conv <;> rfl
  | int b => rw [Env.toObject, show env.chooseToObject t (.prim .int) none = .ok conv from h]; cases conv <;> rfl
  | float b => rw [Env.toObject, show env.chooseToObject t (.prim .float) none = .ok conv from h]; cases conv <;> rfl
  | none => rw [Env.toObject, show env.chooseToObject t (.prim .none) none = .ok conv from h]; cases conv <;> rfl
  | enum c n => rw [Env.toObject, show env.chooseToObject t (.cls c) none = .ok conv from h]; cases conv <;> rfl
  | type r => rw [Env.toObject, show env.chooseToObject t .type none = .ok conv from h]; cases conv <;> rfl
  | obj c vs => rw [Env.toObject, show env.chooseToObject t (.cls c) none = .ok conv from h]; cases conv <;> rfl

theorem toObject_choose {env : Env} {t : Ty} {d v : Val} (h : env.toObject t d = .ok v) :
    ∃ conv, env.chooseToObject t d.pyType (tagOf d) = .ok conv := by
  cases hc : env.chooseToObject t d.pyType (tagOf d) with
  | ok conv => exact ⟨conv, rfl⟩
  | error e =>
    exfalso
    cases d with
    | str s =>
      rw [Env.toObject] at h
      cases t with
      | list u => cases hc
      | tupleVar u => cases hc
      | tuple us => cases hc
      | _ =>
        rw [Env.textToObject, show env.chooseToObject _ (.prim .str) none = .error e from hc] at h
        all_goals first
          | (intros; contradiction)
          | cases h
    | list vs => rw [Env.toObject, show env.chooseToObject t .list none = .error e from hc] at h; cases h
    | tuple vs => rw [Env.toObject, show env.chooseToObject t .tuple none = .error e from hc] at h; cases h
    | dict items => rw [Env.toObject, show env.chooseToObject t .dict (Dict.get? items (py"__type__")) = .error e from hc] at h; cases h
    | bool b => rw [Env.toObject, show env.chooseToObject t (.prim .bool) none = .error e from hc] at h; cases h
    | int b => rw [Env.toObject, show env.chooseToObject t (.prim .int) none = .error e from hc] at h; cases h
    | float b => rw [Env.toObject, show env.chooseToObject t (.prim .float) none = .error e from hc] at h; cases h
    | none => rw [Env.toObject, show env.chooseToObject t (.prim .none) none = .error e from hc] at h; cases h
    | enum c n => rw [Env.toObject, show env.chooseToObject t (.cls c) none = .error e from hc] at h; cases h
    | type r => rw [Env.toObject, show env.chooseToObject t .type none = .error e from hc] at h; cases h
    | obj c vs => rw [Env.toObject, show env.chooseToObject t (.cls c) none = .error e from hc] at h; cases h

/-! ## Reading -/

theorem toObjectAll_iff {env : Env} {t : Ty} : ∀ {ds vs : List Val}, env.toObjectAll t ds = .ok vs ↔
    ds.length = vs.length ∧ ∀ x ∈ ds.zip vs, env.toObject t x.1 = .ok x.2
  | [], vs => by
    rw [Env.toObjectAll]
    cases vs <;> simp
  | d :: ds, vs => by
    rw [Env.toObjectAll]
    constructor
    · intro h
      obtain ⟨v, h1, h⟩ := resBind_ok h
      obtain ⟨ws, h2, h⟩ := resBind_ok h
      cases h
      obtain ⟨h3, h4⟩ := toObjectAll_iff.mp h2
      refine ⟨by simp [h3], ?_⟩
      intro x hx
      rw [List.zip_cons_cons, List.mem_cons] at hx
      rcases hx with rfl | hx
      · exact h1
      · exact h4 x hx
    · rintro ⟨hl, h⟩
      cases vs with
      | nil => cases hl
      | cons v vs =>
        have h1 := h (d, v) (by simp)
        have h2 := toObjectAll_iff.mpr ⟨by simpa using hl, fun x hx => h x (by simp [hx])⟩
        simp only at h1
        rw [h1, h2]
        rfl

theorem toObjectZip_iff {env : Env} : ∀ {ts : List Ty} {ds vs : List Val}, env.toObjectZip ts ds = .ok vs ↔
    vs.length = min ts.length ds.length ∧ ∀ x ∈ ts.zip (ds.zip vs), env.toObject x.1 x.2.1 = .ok x.2.2
  | ts, [], vs => by
    rw [Env.toObjectZip]
    cases vs <;> simp
  | [], d :: ds, vs => by
    rw [Env.toObjectZip]
    cases vs <;> simp
  | t :: ts, d :: ds, vs => by
    rw [Env.toObjectZip]
    constructor
    · intro h
      obtain ⟨v, h1, h⟩ := resBind_ok h
      obtain ⟨ws, h2, h⟩ := resBind_ok h
      cases h
      obtain ⟨h3, h4⟩ := toObjectZip_iff.mp h2
      refine ⟨by simp [h3], ?_⟩
      intro x hx
      rw [List.zip_cons_cons, List.zip_cons_cons, List.mem_cons] at hx
      rcases hx with rfl | hx
      · exact h1
      · exact h4 x hx
    · rintro ⟨hl, h⟩
      cases vs with
      | nil => simp at hl
      | cons v vs =>
        have h1 := h (t, d, v) (by simp)
        have h2 := toObjectZip_iff.mpr ⟨by simpa using hl, fun x hx => h x (by simp [hx])⟩
        simp only at h1
        rw [h1, h2]
        rfl

theorem get?_update_mem {α : Type} : ∀ {e d : Dict Str α} {k : Str} {v : α}, (Dict.update d e).get? k = some v → (k, v) ∈ e ∨ d.get? k = some v
  | [], _, _, _, h => .inr h
  | x :: e, d, k, v, h => by
    rcases get?_update_mem (e := e) h with h | h
    · exact .inl (by simp [h])
    · rw [Dict.get?_set] at h
      split at h
      · rename_i hk
        cases h
        exact .inl (by simp [hk])
      · exact .inr h

theorem get?_update_has {α : Type} : ∀ {e d : Dict Str α} {k : Str}, (k ∈ e.map (·.1) ∨ ∃ v, d.get? k = some v) →
    ∃ v, (Dict.update d e).get? k = some v
  | [], _, _, h => by simpa [Dict.update] using h
  | x :: e, d, k, h => by
    refine get?_update_has (e := e) (d := d.set x.1 x.2) ?_
    rw [Dict.get?_set]
    by_cases hk : k = x.1
    · exact .inr ⟨x.2, if_pos hk⟩
    · rw [if_neg hk]
      rcases h with h | h
      · rw [List.map_cons, List.mem_cons] at h
        exact .inl (h.resolve_left hk)
      · exact .inr h

/-- What the loop over the items does. -/
structure ReadsItems (env : Env) (subs : Dict Str Ty) (items kws : List (Str × Val)) : Prop where
  known : ∀ k ∈ items.map (·.1), k = py"__type__" ∨ ∃ t, subs.get? k = some t
  read : ∀ x ∈ kws, ∃ k d t, (k, d) ∈ items ∧ subs.get? k = some t ∧ x.1 = Env.keywordOf k ∧ env.toObject t d = .ok x.2
  all : ∀ k ∈ items.map (·.1), k ≠ py"__type__" → Env.keywordOf k ∈ kws.map (·.1)

theorem readsItems {env : Env} {subs : Dict Str Ty} : ∀ {items kws : List (Str × Val)}, env.toObjectItems subs items = .ok kws →
    ReadsItems env subs items kws
  | [], kws, h => by
    rw [Env.toObjectItems] at h
    cases h
    exact ⟨by simp, by simp, by simp⟩
  | (k, d) :: items, kws, h => by
    rw [Env.toObjectItems] at h
    by_cases hk : k = py"__type__"
    · rw [if_pos hk] at h
      have ih := readsItems h
      refine ⟨?_, ?_, ?_⟩
      · intro l hl
        rcases List.mem_cons.mp hl with rfl | hl
        · exact .inl hk
        · exact ih.known l hl
      · intro x hx
        obtain ⟨a, b, c, h1, h2⟩ := ih.read x hx
        exact ⟨a, b, c, by simp [h1], h2⟩
      · intro l hl hne
        rcases List.mem_cons.mp hl with rfl | hl
        · exact absurd hk hne
        · exact ih.all l hl hne
    · rw [if_neg hk] at h
      cases hg : subs.get? k with
      | none => rw [hg] at h; cases h
      | some t =>
        rw [hg] at h
        obtain ⟨v, h1, h⟩ := resBind_ok h
        obtain ⟨ks, h2, h⟩ := resBind_ok h
        cases h
        have ih := readsItems h2
        refine ⟨?_, ?_, ?_⟩
        · intro l hl
          rcases List.mem_cons.mp hl with rfl | hl
          · exact .inr ⟨t, hg⟩
          · exact ih.known l hl
        · intro x hx
          rcases List.mem_cons.mp hx with rfl | hx
          · exact ⟨k, d, t, by simp, hg, rfl, h1⟩
          · obtain ⟨a, b, c, h1, h2⟩ := ih.read x hx
            exact ⟨a, b, c, by simp [h1], h2⟩
        · intro l hl hne
          rcases List.mem_cons.mp hl with rfl | hl
          · simp
          · exact List.mem_cons_of_mem _ (ih.all l hl hne)

theorem toObjectItems_ok {env : Env} {subs : Dict Str Ty} : ∀ {items : List (Str × Val)},
    (∀ x ∈ items, x.1 ≠ py"__type__" → ∃ t v, subs.get? x.1 = some t ∧ env.toObject t x.2 = .ok v) →
    ∃ kws, env.toObjectItems subs items = .ok kws
  | [], _ => ⟨[], by rw [Env.toObjectItems]⟩
  | (k, d) :: items, h => by
    obtain ⟨kws, ih⟩ := toObjectItems_ok (items := items) fun x hx => h x (by simp [hx])
    rw [Env.toObjectItems]
    by_cases hk : k = py"__type__"
    · exact ⟨kws, by rw [if_pos hk, ih]⟩
    · obtain ⟨t, v, h1, h2⟩ := h (k, d) (by simp) hk
      simp only at h1 h2
      exact ⟨_, by rw [if_neg hk, h1]; simp only [h2, ih]; rfl⟩

theorem initValues_iff {env : Env} {c : ClassId} {kwargs : Dict Str Val} : ∀ {fs : List Field} {as : List (Str × Val)},
    env.initValues c kwargs fs = .ok as ↔ as.map (·.1) = (fs.filter (·.init)).map (·.name) ∧
      ∀ x ∈ (fs.filter (·.init)).zip as, (kwargs.get? (Env.initArg x.1.name)).or (x.1.default.or (env.factory c x.1.name)) = some x.2.2
  | [], as => by
    rw [Env.initValues]
    cases as <;> simp
  | f :: fs, as => by
    rw [Env.initValues]
    cases hi : f.init with
    | false =>
      simp only [Bool.false_eq_true, if_false]
      rw [initValues_iff]
      simp [hi]
    | true =>
      simp only [if_true, List.filter_cons, hi]
      constructor
      · intro h
        cases hv : (kwargs.get? (Env.initArg f.name)).or (f.default.or (env.factory c f.name)) with
        | none => rw [hv] at h; cases h
        | some v =>
          rw [hv] at h
          obtain ⟨bs, h1, h⟩ := resBind_ok h
          cases h
          obtain ⟨h2, h3⟩ := initValues_iff.mp h1
          refine ⟨by simp [h2], ?_⟩
          intro x hx
          rw [List.zip_cons_cons, List.mem_cons] at hx
          rcases hx with rfl | hx
          · exact hv
          · exact h3 x hx
      · rintro ⟨hn, h⟩
        cases as with
        | nil => simp at hn
        | cons a as =>
          obtain ⟨n, v⟩ := a
          rw [List.map_cons, List.map_cons] at hn
          obtain ⟨rfl, hn'⟩ := List.cons.inj hn
          have h1 := h (f, f.name, v) (by simp)
          have h2 := initValues_iff.mpr ⟨hn', fun x hx => h x (by simp [hx])⟩
          simp only at h1
          rw [h1, h2]
          rfl

/-- The names of the attributes of a class are different. -/
theorem names_nodup {env : Env} (hs : Sound env) {c : ClassId} {fs : List Field} (hk : (env.info c).kind = .attrs fs) :
    (Dict.keys (Env.subconverters fs)).Nodup := by
  have := hs.names c fs hk
  have e : (fs.filter (·.init)).map (fun f => Env.initArg f.name) = ((fs.filter (·.init)).map (·.name)).map Env.initArg := by
    rw [List.map_map]
    rfl
  rw [e] at this
  unfold Dict.keys Env.subconverters
  rw [List.map_map]
  exact List.Pairwise.imp (fun h e => h (congrArg _ e)) (List.pairwise_map.mp this)

theorem subconverters_get {env : Env} (hs : Sound env) {c : ClassId} {fs : List Field} (hk : (env.info c).kind = .attrs fs) {k : Str} {t : Ty} :
    (Env.subconverters fs).get? k = some t ↔ ∃ f ∈ fs, f.init = true ∧ f.name = k ∧ f.type = t := by
  constructor
  · intro h
    have := get?_mem h
    obtain ⟨f, hf, he⟩ := List.mem_map.mp this
    obtain ⟨h1, h2⟩ := List.mem_filter.mp hf
    cases he
    exact ⟨f, h1, h2, rfl, rfl⟩
  · rintro ⟨f, hf, hi, rfl, rfl⟩
    exact get?_of_mem_nodup (names_nodup hs hk) (List.mem_map.mpr ⟨f, by simp [hf, hi], rfl⟩)

/-- What the class is called with. -/
theorem kwargs_get {env : Env} (hs : Sound env) {c : ClassId} {fs : List Field} (hk : (env.info c).kind = .attrs fs)
    {items kws : List (Str × Val)} (h : ReadsItems env (Env.subconverters fs) items kws) {f : Field} (hf : f ∈ fs) (hi : f.init = true) :
    (∀ w, (Dict.update [] kws).get? (Env.initArg f.name) = some w → ∃ d, (f.name, d) ∈ items ∧ env.toObject f.type d = .ok w) ∧
    ((Dict.update [] kws).get? (Env.initArg f.name) = none → f.name ∉ items.map (·.1)) := by
  refine ⟨?_, ?_⟩
  · intro w hw
    rcases get?_update_mem hw with hw | hw
    · obtain ⟨k, d, t, h1, h2, h3, h4⟩ := h.read _ hw
      obtain ⟨g, hg, hgi, rfl, rfl⟩ := (subconverters_get hs hk).mp h2
      simp only [keywordOf_eq (hs.underscores c fs hk g hg hgi)] at h3
      have := nodup_map_eq (hs.names c fs hk) (x := f) (y := g) (by simp [hf, hi]) (by simp [hg, hgi]) h3
      subst this
      exact ⟨d, h1, h4⟩
    · cases hw
  · intro hn hin
    have hne : f.name ≠ py"__type__" := hs.underscores c fs hk f hf hi _
    have := h.all _ hin hne
    rw [keywordOf_eq (hs.underscores c fs hk f hf hi)] at this
    obtain ⟨v, hv⟩ := get?_update_has (e := kws) (d := []) (.inl this)
    rw [hn] at hv
    cases hv

theorem callClass_known {env : Env} (hs : Sound env) {c : ClassId} {fs : List Field} (hk : (env.info c).kind = .attrs fs)
    {items kws : List (Str × Val)} (h : ReadsItems env (Env.subconverters fs) items kws) :
    ((Dict.update [] kws).keys.all fun k => fs.any fun f => f.init && Env.initArg f.name = k) = true := by
  rw [List.all_eq_true]
  intro k hkey
  obtain ⟨v, hv⟩ := (Dict.mem_keys_iff _ _).mp hkey
  rcases get?_update_mem hv with hv | hv
  · obtain ⟨k', d, t, h1, h2, h3, h4⟩ := h.read _ hv
    obtain ⟨g, hg, hgi, rfl, rfl⟩ := (subconverters_get hs hk).mp h2
    simp only [keywordOf_eq (hs.underscores c fs hk g hg hgi)] at h3
    rw [List.any_eq_true]
    exact ⟨g, hg, by simp [hgi, h3]⟩
  · cases hv

/-- The type of the elements of a list or tuple. -/
inductive ElementType : Ty → Ty → Prop
  | list (u) : ElementType (.list u) u
  | tupleVar (u) : ElementType (.tupleVar u) u
  | tuple {us u} (h : u ∈ us) : ElementType (.tuple us) u

theorem typeNames_in {env : Env} {rs : List ClassRef} {n : Str} {r : ClassRef} (h : (env.typeNames rs).get? n = some r) :
    r ∈ rs ∧ env.nameOf r = n := by
  have key : ∀ (rs : List ClassRef) (d : Dict Str ClassRef), (rs.foldl (fun d r => d.set (env.nameOf r) r) d).get? n = some r →
      (r ∈ rs ∧ env.nameOf r = n) ∨ d.get? n = some r := by
    intro rs
    induction rs with
    | nil => exact fun d h => .inr h
    | cons a rs ih =>
      intro d h
      rcases ih _ h with h | h
      · exact .inl ⟨by simp [h.1], h.2⟩
      · rw [Dict.get?_set] at h
        split at h
        · rename_i hn
          cases h
          exact .inl ⟨by simp, hn.symm⟩
        · exact .inr h
  rcases key rs [] h with h | h
  · exact h
  · cases h

theorem mem_zip_middle {α β γ : Type} {as : List α} {bs : List β} {cs : List γ} {x : α × β × γ} (h : x ∈ as.zip (bs.zip cs)) :
    x.1 ∈ as ∧ x.2.1 ∈ bs := by
  obtain ⟨a, b, c⟩ := x
  have := List.of_mem_zip h
  exact ⟨this.1, (List.of_mem_zip this.2).1⟩

/-- One step of reading. -/
theorem read_step {env : Env} (hs : Sound env) (hb : Bounded env) {t : Ty} {d v : Val}
    (helem : ∀ m u d' ds, TakenFor env t m d → ElementType m u → elementsOf d = some ds → d' ∈ ds → ∀ v', env.toObject u d' = .ok v' →
      ReadAs env u d' v')
    (hitem : ∀ items, d = .dict items → ∀ x ∈ items, ∀ u v', env.toObject u x.2 = .ok v' → ReadAs env u x.2 v')
    (h : env.toObject t d = .ok v) : ReadAs env t d v := by
  obtain ⟨conv, hc⟩ := toObject_choose h
  obtain ⟨m, hm, hconv⟩ := takenFor_of_choose hs hb hc
  rw [toObject_eq hm hconv hc] at h
  refine .of hm ?_
  have hinv := single_inv hconv
  cases conv with
  | noop p =>
    obtain rfl : m = .prim p := hinv
    cases h
    exact .prim p _
  | list u =>
    obtain rfl : m = .list u := hinv
    rw [convertBy] at h
    cases he : elementsOf d with
    | none => rw [he] at h; cases h
    | some ds =>
      rw [he] at h
      obtain ⟨vs, h1, h⟩ := resBind_ok h
      cases h
      obtain ⟨h2, h3⟩ := toObjectAll_iff.mp h1
      exact .list (elements_iff.mpr he) h2 fun x hx => helem _ u x.1 ds hm (.list u) he (List.of_mem_zip hx).1 _ (h3 x hx)
  | tupleVar u =>
    obtain rfl : m = .tupleVar u := hinv
    rw [convertBy] at h
    cases he : elementsOf d with
    | none => rw [he] at h; cases h
    | some ds =>
      rw [he] at h
      obtain ⟨vs, h1, h⟩ := resBind_ok h
      cases h
      obtain ⟨h2, h3⟩ := toObjectAll_iff.mp h1
      exact .tupleVar (elements_iff.mpr he) h2 fun x hx => helem _ u x.1 ds hm (.tupleVar u) he (List.of_mem_zip hx).1 _ (h3 x hx)
  | tuple us =>
    obtain rfl : m = .tuple us := hinv
    rw [convertBy] at h
    cases he : elementsOf d with
    | none => rw [he] at h; cases h
    | some ds =>
      rw [he] at h
      obtain ⟨vs, h1, h⟩ := resBind_ok h
      cases h
      obtain ⟨h2, h3⟩ := toObjectZip_iff.mp h1
      exact .tuple (elements_iff.mpr he) h2 fun x hx =>
        helem _ x.1 x.2.1 ds hm (.tuple (mem_zip_middle hx).1) he (mem_zip_middle hx).2 _ (h3 x hx)
  | enum c ms =>
    obtain ⟨rfl, hk⟩ := hinv
    cases d with
    | str s =>
      simp only [convertBy] at h
      split at h
      · cases h
        exact .enum hk (by assumption)
      · cases h
    | _ => cases h
  | typeName types =>
    obtain ⟨ts, rs, rfl, hrs, rfl⟩ := hinv
    cases d with
    | str s =>
      simp only [convertBy] at h
      cases hg : (env.typeNames rs).get? s with
      | none => rw [hg] at h; cases h
      | some r =>
        rw [hg] at h
        cases h
        obtain ⟨h1, rfl⟩ := typeNames_in hg
        exact .type (classesOf_in hrs h1)
    | _ => cases h
  | attrs c fs =>
    obtain ⟨rfl, hk⟩ := hinv
    cases d with
    | dict items =>
      simp only [convertBy] at h
      obtain ⟨kws, h1, h⟩ := resBind_ok h
      have hr := readsItems h1
      rw [Env.callClass, if_pos (callClass_known hs hk hr)] at h
      obtain ⟨as, h2, h⟩ := resBind_ok h
      obtain ⟨vs, h3, h⟩ := resBind_ok h
      cases h
      obtain ⟨h4, h5⟩ := initValues_iff.mp h2
      refine .obj hk ?_ h4 ?_ h3
      · intro k hkey
        rcases hr.known k hkey with h | ⟨t, h⟩
        · exact .inl h
        · obtain ⟨f, hf, hi, hn, -⟩ := (subconverters_get hs hk).mp h
          exact .inr ⟨f, hf, hi, hn⟩
      · intro x hx
        have hxf := (List.of_mem_zip hx).1
        obtain ⟨hf, hi⟩ := List.mem_filter.mp hxf
        obtain ⟨k1, k2⟩ := kwargs_get hs hk hr hf hi
        have hv := h5 x hx
        cases hg : (Dict.update [] kws).get? (Env.initArg x.1.name) with
        | none =>
          rw [hg] at hv
          exact .default (k2 hg) (by simpa using hv)
        | some w =>
          rw [hg] at hv
          cases hv
          obtain ⟨d, h1, h2⟩ := k1 _ hg
          exact .given h1 (hitem items rfl _ h1 _ _ h2)
    | _ => cases h
  | union a b c => exact hinv.elim

theorem elementType_size {m u : Ty} (h : ElementType m u) : sizeOf u < sizeOf m := by
  cases h with
  | list => simp
  | tupleVar => simp
  | tuple h =>
    have := List.sizeOf_lt_of_mem h
    simp
    omega

theorem elementType_plain {env : Env} {m u : Ty} (h : ElementType m u) : plainType env m = .list := by
  cases h <;> rfl

/-- What is read is what the data says. -/
theorem read_str {env : Env} (hs : Sound env) (hb : Bounded env) : ∀ (n : Nat) (t : Ty) (s : Str) (v : Val), sizeOf t < n →
    env.toObject t (.str s) = .ok v → ReadAs env t (.str s) v
  | 0, _, _, _, hn, _ => absurd hn (Nat.not_lt_zero _)
  | n + 1, t, s, v, hn, h => by
    refine read_step hs hb ?_ ?_ h
    · intro m u d' ds hm he hds hd' v' h'
      obtain rfl := takenFor_str hm (elementType_plain he)
      cases hds
      obtain ⟨c, -, rfl⟩ := List.mem_map.mp hd'
      exact read_str hs hb n u _ v' (by have := elementType_size he; omega) h'
    · intro items hi
      cases hi

theorem read {env : Env} (hs : Sound env) (hb : Bounded env) : ∀ (d : Val) (t : Ty) (v : Val),
    env.toObject t d = .ok v → ReadAs env t d v := by
  intro d
  induction d using Val.ind with
  | _ d ih =>
  intro t v h
  cases d with
  | str s => exact read_str hs hb _ t s v (Nat.lt_succ_self _) h
  | list ds =>
    refine read_step hs hb ?_ (fun items hi => by cases hi) h
    intro m u d' ds' _ _ hds hd' v'
    cases hds
    exact ih d' hd' u v'
  | tuple ds =>
    refine read_step hs hb ?_ (fun items hi => by cases hi) h
    intro m u d' ds' _ _ hds hd' v'
    cases hds
    exact ih d' hd' u v'
  | dict items =>
    refine read_step hs hb ?_ ?_ h
    · intro m u d' ds' _ _ hds hd' v' h'
      cases hds
      obtain ⟨c, -, rfl⟩ := List.mem_map.mp hd'
      exact read_str hs hb _ u _ v' (Nat.lt_succ_self _) h'
    · intro items' hi x hx u v'
      cases hi
      exact ih x.2 (List.mem_map.mpr ⟨x, hx, rfl⟩) u v'
  | _ =>
    refine read_step hs hb ?_ (fun items hi => by cases hi) h
    intro m u d' ds' _ _ hds
    cases hds

/-- One step of the other direction. -/
theorem readable_step {env : Env} (hs : Sound env) (hb : Bounded env) {t : Ty} {d v : Val} (ha : ∃ conv, env.create t = .ok conv) (hc : Clear env t)
    (hkeys : ∀ items, d = .dict items → (items.map (·.1)).Nodup)
    (helem : ∀ m u d' ds, TakenFor env t m d → ElementType m u → elementsOf d = some ds → d' ∈ ds → ∀ v', ReadAs env u d' v' →
      env.toObject u d' = .ok v')
    (hitem : ∀ m u items, TakenFor env t m d → Component env m u → d = .dict items → ∀ x ∈ items, ∀ v', ReadAs env u x.2 v' →
      env.toObject u x.2 = .ok v')
    (h : ReadAs env t d v) : env.toObject t d = .ok v := by
  obtain ⟨hm, h⟩ := h
  rename_i m
  obtain ⟨conv, hconv, hch⟩ := choose_of_takenFor hs hb ha hc hm
  rw [toObject_eq hm hconv hch]
  have hmem : Member env t m := by
    cases hm with
    | alone ha hm => subst hm; exact .self ha.1
    | kind h => exact h
    | only h => exact h
    | named h => exact h
    | first h => exact h
  cases h with
  | prim p => cases hconv; rfl
  | list hd hl h =>
    rename_i u ds vs
    cases hconv
    have he := elements_iff.mp hd
    rw [convertBy, he]
    have := toObjectAll_iff.mpr ⟨hl, fun x hx => helem _ u x.1 ds hm (.list u) he (List.of_mem_zip hx).1 _ (h x hx)⟩
    simp only [this]
    rfl
  | tupleVar hd hl h =>
    rename_i u ds vs
    cases hconv
    have he := elements_iff.mp hd
    rw [convertBy, he]
    have := toObjectAll_iff.mpr ⟨hl, fun x hx => helem _ u x.1 ds hm (.tupleVar u) he (List.of_mem_zip hx).1 _ (h x hx)⟩
    simp only [this]
    rfl
  | tuple hd hl h =>
    rename_i us ds vs
    cases hconv
    have he := elements_iff.mp hd
    rw [convertBy, he]
    have := toObjectZip_iff.mpr ⟨hl, fun x hx =>
      helem _ x.1 x.2.1 ds hm (.tuple (mem_zip_middle hx).1) he (mem_zip_middle hx).2 _ (h x hx)⟩
    simp only [this]
    rfl
  | enum hk hn =>
    rw [Env.single, hk] at hconv
    cases hconv
    simp [convertBy, hn]
  | type h =>
    rename_i ts r
    rw [Env.single] at hconv
    obtain ⟨rs, hrs, h1⟩ := resBind_ok hconv
    cases h1
    have hget : (env.typeNames rs).get? (env.nameOf r) = some r := by
      refine typeNames_get (classesOf_has hb hrs h) ?_
      intro s hs' hname
      exact hc.2 ts hmem s r (classesOf_in hrs hs') h hname
    simp [convertBy, hget]
  | obj hk known hn h made =>
    rename_i c fs items as vs
    rw [Env.single, hk] at hconv
    cases hconv
    have hnd := hkeys items rfl
    have fieldRead : ∀ x ∈ (fs.filter (·.init)).zip as, x.1 ∈ fs ∧ x.1.init = true ∧
        ((∃ d, (x.1.name, d) ∈ items ∧ env.toObject x.1.type d = .ok x.2.2) ∨
          (x.1.name ∉ items.map (·.1) ∧ x.1.default.or (env.factory c x.1.name) = some x.2.2)) := by
      intro x hx
      obtain ⟨hf, hi⟩ := List.mem_filter.mp (List.of_mem_zip hx).1
      refine ⟨hf, hi, ?_⟩
      cases h x hx with
      | given h1 h2 => exact .inl ⟨_, h1, hitem _ _ items hm (.field hk hf hi) rfl _ h1 _ h2⟩
      | default h1 h2 => exact .inr ⟨h1, h2⟩
    have hlen : (fs.filter (·.init)).length = as.length := by
      have := congrArg List.length hn
      simpa using this.symm
    have paired : ∀ f ∈ fs, f.init = true → ∃ a, (f, a) ∈ (fs.filter (·.init)).zip as := by
      intro f hf hi
      have hmf : f ∈ fs.filter (·.init) := by simp [hf, hi]
      obtain ⟨i, hi', he⟩ := List.getElem_of_mem hmf
      have hia : i < as.length := hlen ▸ hi'
      refine ⟨as[i], ?_⟩
      have : ((fs.filter (·.init)).zip as)[i]'(by simp [List.length_zip]; omega) = (f, as[i]) := by
        rw [List.getElem_zip, he]
      rw [← this]
      exact List.getElem_mem _
    obtain ⟨kws, hkws⟩ : ∃ kws, env.toObjectItems (Env.subconverters fs) items = .ok kws := by
      refine toObjectItems_ok ?_
      intro x hx hne
      rcases known x.1 (List.mem_map.mpr ⟨x, hx, rfl⟩) with h | ⟨f, hf, hi, hname⟩
      · exact absurd h hne
      · obtain ⟨a, hz⟩ := paired f hf hi
        obtain ⟨-, -, h | h⟩ := fieldRead _ hz
        · obtain ⟨d, hd, hr⟩ := h
          have : d = x.2 := by
            have hd' : (x.1, d) ∈ items := hname ▸ hd
            have e1 := get?_of_mem_nodup (d := items) hnd hd'
            have e2 := get?_of_mem_nodup (d := items) hnd (k := x.1) (v := x.2) hx
            rw [e1] at e2
            cases e2
            rfl
          subst this
          exact ⟨f.type, _, (subconverters_get hs hk).mpr ⟨f, hf, hi, hname, rfl⟩, hr⟩
        · exact absurd (List.mem_map.mpr ⟨x, hx, hname.symm⟩) h.1
    have hr := readsItems hkws
    rw [convertBy]
    simp only [hkws]
    show env.callClass c fs (Dict.update [] kws) = _
    rw [Env.callClass, if_pos (callClass_known hs hk hr)]
    have hinit : env.initValues c (Dict.update [] kws) fs = .ok as := by
      refine initValues_iff.mpr ⟨hn, ?_⟩
      intro x hx
      obtain ⟨hf, hi, hcase⟩ := fieldRead x hx
      obtain ⟨k1, k2⟩ := kwargs_get hs hk hr hf hi
      cases hg : (Dict.update [] kws).get? (Env.initArg x.1.name) with
      | none =>
        rcases hcase with ⟨d, hd, -⟩ | ⟨-, hdef⟩
        · exact absurd (List.mem_map.mpr ⟨_, hd, rfl⟩) (k2 hg)
        · simpa using hdef
      | some w =>
        obtain ⟨d', hd', hw⟩ := k1 w hg
        rcases hcase with ⟨d, hd, hv⟩ | ⟨hno, -⟩
        · have e1 := get?_of_mem_nodup (d := items) hnd hd
          have e2 := get?_of_mem_nodup (d := items) hnd hd'
          rw [e1] at e2
          cases e2
          rw [hw] at hv
          cases hv
          rfl
        · exact absurd (List.mem_map.mpr ⟨_, hd', rfl⟩) hno
    simp only [hinit]
    show (do let values ← env.finish c as; Except.ok (Val.obj c values)) = _
    rw [made]
    rfl

theorem takenFor_member {env : Env} {t m : Ty} {d : Val} (h : TakenFor env t m d) : Member env t m := by
  cases h with
  | alone ha hm => subst hm; exact .self ha.1
  | kind h => exact h
  | only h => exact h
  | named h => exact h
  | first h => exact h

theorem alone_member {env : Env} {t n : Ty} (h : Alone env t) (hn : Member env t n) : n = t := by
  cases hn with
  | self => rfl
  | sub hsub =>
    have hnil := h.2 _ rfl
    induction hsub with
    | refl => rfl
    | step _ he ih =>
      cases ih
      rw [hnil] at he
      cases he
  | union => exact absurd rfl (h.1 _)

theorem elementType_component {env : Env} {m u : Ty} (h : ElementType m u) : Component env m u := by
  cases h with
  | list => exact .list _
  | tupleVar => exact .tupleVar _
  | tuple h => exact .tuple h

/-- All types of the parts can be built and are clear. -/
def Ready (env : Env) (t : Ty) : Prop := ∀ u, Reach env t u → (∃ conv, env.create u = .ok conv) ∧ Clear env u

theorem ready_component {env : Env} {t m u : Ty} (h : Ready env t) (hm : Member env t m) (hc : Component env m u) : Ready env u :=
  fun w hw => h w (reach_trans (.step .refl hm hc) hw)

theorem readable_str {env : Env} (hs : Sound env) (hb : Bounded env) : ∀ (n : Nat) (t : Ty) (s : Str) (v : Val), sizeOf t < n → Ready env t →
    ReadAs env t (.str s) v → env.toObject t (.str s) = .ok v
  | 0, _, _, _, hn, _, _ => absurd hn (Nat.not_lt_zero _)
  | n + 1, t, s, v, hn, hr, h => by
    refine readable_step hs hb (hr t .refl).1 (hr t .refl).2 (fun items hi => by cases hi) ?_ (fun _ _ items _ _ hi => by cases hi) h
    intro m u d' ds hm he hds hd' v' h'
    have hr' := ready_component hr (takenFor_member hm) (elementType_component he)
    obtain rfl := takenFor_str hm (elementType_plain he)
    cases hds
    obtain ⟨c, -, rfl⟩ := List.mem_map.mp hd'
    exact readable_str hs hb n u _ v' (by have := elementType_size he; omega) hr' h'

/-- What the data says is read. -/
theorem readable {env : Env} (hs : Sound env) (hb : Bounded env) : ∀ (d : Val), PlainData d → ∀ (t : Ty) (v : Val), Ready env t →
    ReadAs env t d v → env.toObject t d = .ok v := by
  intro d
  induction d using Val.ind with
  | _ d ih =>
  intro hp t v hr h
  cases hp with
  | str s => exact readable_str hs hb _ t s v (Nat.lt_succ_self _) hr h
  | list hp =>
    refine readable_step hs hb (hr t .refl).1 (hr t .refl).2 (fun items hi => by cases hi) ?_ (fun _ _ items _ _ hi => by cases hi) h
    intro m u d' ds' hm he hds hd' v' h'
    cases hds
    exact ih d' hd' (hp d' hd') u v' (ready_component hr (takenFor_member hm) (elementType_component he)) h'
  | dict hn hp =>
    refine readable_step hs hb (hr t .refl).1 (hr t .refl).2 (fun items hi => by cases hi; exact hn) ?_ ?_ h
    · intro m u d' ds' hm he hds hd' v' h'
      cases hds
      obtain ⟨c, -, rfl⟩ := List.mem_map.mp hd'
      exact readable_str hs hb _ u _ v' (Nat.lt_succ_self _) (ready_component hr (takenFor_member hm) (elementType_component he)) h'
    · intro m u items' hm hc hi x hx v' h'
      cases hi
      exact ih x.2 (List.mem_map.mpr ⟨x, hx, rfl⟩) (hp x hx) u v' (ready_component hr (takenFor_member hm) hc) h'
  | _ =>
    refine readable_step hs hb (hr t .refl).1 (hr t .refl).2 (fun items hi => by cases hi) ?_ (fun _ _ items _ _ hi => by cases hi) h
    intro m u d' ds' _ _ hds
    cases hds

end Verif
