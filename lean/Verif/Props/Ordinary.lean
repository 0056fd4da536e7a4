import Verif.Proofs.Mentions
import Verif.Props.Sentences

/-! # All that ordinary sentences mention is reported (C71) -/

namespace Verif.Props

open Verif.Spec Verif.ActGrammar

set_option maxRecDepth 100000

/-! ## Examples of such sentences -/

/-- "Ptk. 5. § (1) bekezdése" -/
def courtMention : Mention :=
  (some { abbreviation := some (py"Ptk.", 12, 16) }, [([⟨.article, [(py"5", 17, 19)], []⟩, ⟨.paragraph, [(py"1", 22, 25)], []⟩], 17, 35)])

theorem court_ordinary : Ordinary 0 (py"A bíróság a Ptk. 5. § (1) bekezdése szerint dönt.") [courtMention] := by
  have tail : Ordinary 35 (py" szerint dönt.") [] :=
    .space rfl (.plain (w := py"szerint") (plain_word (by decide +kernel))
      (.space rfl (.plain (w := py"dönt") (plain_word (by decide +kernel)) (.plain (w := py".") (plain_mark (by decide +kernel)) .done))))
  have digit : ∀ c : Char, isAsciiDigit c = true → Digits [c] := fun c h => ⟨by simp, by simpa using h⟩
  have article : PartText 17 ⟨.article, [(py"5", 17, 19)], []⟩ (py"5. §") :=
    ⟨[.inr (py"5", 17, 19)], py"5.", py"§", .one ⟨rfl, ⟨[], py"5", [], rfl, .inl rfl, digit _ rfl, .inl rfl⟩, rfl⟩, .inl rfl, rfl, rfl, rfl⟩
  have paragraph : PartText 22 ⟨.paragraph, [(py"1", 22, 25)], []⟩ (py"(1) bekezdése") :=
    ⟨[.inr (py"1", 22, 25)], py"(1)", py"bekezdése", .one ⟨rfl, ⟨py"1", [], rfl, digit _ rfl, .inl rfl⟩, rfl⟩,
      ⟨py"e", rfl, by unfold hunLower; decide +kernel⟩, rfl, rfl, rfl⟩
  have ref : ReferencesText 17 courtMention.2 (py"5. § (1) bekezdése") := .one (.cons article (.inl rfl) (.one paragraph))
  have pauses : Pauses (py" szerint dönt.") := .inr ⟨py"szerint", py" dönt.", rfl, plain_word (by decide +kernel)⟩
  have act : Ordinary 12 (py"Ptk. 5. § (1) bekezdése szerint dönt.") [courtMention] :=
    .actWith (w := py"Ptk.") (.short ⟨'P', py"tk", rfl, .inl rfl, by simp, by unfold hunLower; decide +kernel⟩ (by decide +kernel)) ref
      (by unfold WordEnds; decide +kernel) (closes_before pauses (by decide +kernel)) (by rintro d t ⟨⟩ h; revert h; decide) tail
  exact .plain (w := py"A") (plain_word (by decide +kernel)) (.space rfl (.plain (w := py"bíróság") (plain_word (by decide +kernel))
    (.space rfl (.plain (w := py"a") (plain_word (by decide +kernel)) (.space rfl act)))))

/-- "1., 3. és 5–7. §" -/
def listMention : Mention := (none, [([⟨.article, [(py"1", 3, 5), (py"3", 7, 9)], [((py"5", py"7"), 13, 17)]⟩], 3, 19)])

theorem list_ordinary : Ordinary 0 (py"Az 1., 3. és 5–7. § nem alkalmazható.") [listMention] := by
  have tail : Ordinary 19 (py" nem alkalmazható.") [] :=
    .space rfl (.plain (w := py"nem") (plain_word (by decide +kernel)) (.space rfl (.plain (w := py"alkalmazható") (plain_word (by decide +kernel))
      (.plain (w := py".") (plain_mark (by decide +kernel)) .done))))
  have number : ∀ c : Char, isAsciiDigit c = true → Identifies .article [c] := fun c h =>
    ⟨[], [c], [], rfl, .inl rfl, ⟨by simp, by simpa using h⟩, .inl rfl⟩
  have items : ItemsText .article 3 [.inr (py"1", 3, 5), .inr (py"3", 7, 9), .inl ((py"5", py"7"), 13, 17)] (py"1., 3. és 5–7.") :=
    .cons (w := py"1.") (g := py", ") ⟨rfl, number _ rfl, rfl⟩ ⟨py",", [], [], rfl, by decide, by decide, by decide, by decide⟩
      (.cons (w := py"3.") (g := py" és ") ⟨rfl, number _ rfl, rfl⟩ ⟨[], py" és", [], rfl, by decide, by decide, by decide, by decide⟩
        (.one ⟨rfl, number _ rfl, number _ rfl, py"–", by unfold Dash; decide, rfl⟩))
  have ref : ReferenceText 3 [⟨.article, [(py"1", 3, 5), (py"3", 7, 9)], [((py"5", py"7"), 13, 17)]⟩] (py"1., 3. és 5–7. §") :=
    .one ⟨_, py"1., 3. és 5–7.", py"§", items, .inl rfl, rfl, rfl, rfl⟩
  exact .plain (w := py"Az") (plain_word (by decide +kernel)) (.space rfl (.reference ref (by unfold WordEnds; decide +kernel)
    (.inr ⟨py"nem", py" alkalmazható.", rfl, plain_word (by decide +kernel)⟩) (by rintro d t ⟨⟩ h; revert h; decide) tail))

/-- "2012. évi II. törvény (a továbbiakban: Szabs. tv.)" -/
def namedMention : Mention := (some { actId := some ((py"2012", py"II"), 2, 23), fromNowOn := some (py"Szabs. tv.") }, [])

/-- "2013. évi V. tv. (a továbbiakban: polgári törvénykönyv)" -/
def describedMention : Mention := (some { actId := some ((py"2013", py"V"), 59, 75) }, [])

def namingText : Str :=
  py"A 2012. évi II. törvény (a továbbiakban: Szabs. tv.), és a 2013. évi V. tv. (a továbbiakban: polgári törvénykönyv) az."

theorem naming_ordinary : Ordinary 0 namingText [namedMention, describedMention] := by
  have first : ActNumber (py"2012") (py"II") (py"2012. évi II. törvény") :=
    ⟨py"törvény", ⟨by simp, by decide⟩, ⟨by simp, by decide⟩, .inl ⟨[], rfl, by simp⟩, rfl⟩
  have second : ActNumber (py"2013") (py"V") (py"2013. évi V. tv.") := ⟨py"tv.", ⟨by simp, by decide⟩, ⟨by simp, by decide⟩, .inr rfl, rfl⟩
  have name : LongName (py"Szabs. tv.") := ⟨'S', py"zabs", py". tv.", rfl, .inl rfl, by simp, by unfold hunLower; decide +kernel, by simp⟩
  have words : SmallWords (py"polgári törvénykönyv") := .cons (w := py"polgári") (by simp) (by unfold hunLower; decide +kernel)
    (.one (by simp) (by unfold hunLower; decide +kernel))
  have end_ : Ordinary 114 (py" az.") [] :=
    .space rfl (.plain (w := py"az") (plain_word (by decide +kernel)) (.plain (w := py".") (plain_mark (by decide +kernel)) .done))
  have later : Ordinary 59 (py"2013. évi V. tv. (a továbbiakban: polgári törvénykönyv) az.") [describedMention] :=
    .act (w := py"2013. évi V. tv. (a továbbiakban: polgári törvénykönyv)") (.described second (.head _) words)
      (.inr ⟨py"az", py".", rfl, plain_word (by decide +kernel)⟩) end_
  have middle : Ordinary 52 (py", és a 2013. évi V. tv. (a továbbiakban: polgári törvénykönyv) az.") [describedMention] :=
    .plain (w := py",") (plain_mark (by decide +kernel)) (.space rfl (.plain (w := py"és") (plain_word (by decide +kernel))
      (.space rfl (.plain (w := py"a") (plain_word (by decide +kernel)) (.space rfl later)))))
  exact .plain (w := py"A") (plain_word (by decide +kernel)) (.space rfl
    (.act (w := py"2012. évi II. törvény (a továbbiakban: Szabs. tv.)") (.defined first (.head _) (.inr name) (.head _))
      (.inr ⟨py",", _, rfl, plain_mark (by decide +kernel)⟩) middle))

/-! ## The properties -/

/-- C71. Nothing but the mentions of an ordinary sentence is reported, and each of them is, in their order: the act, what is named of it, and
the abbreviation that is defined. -/
theorem mentions_reported {s : Str} {ms : List Mention} {r : Analysis} (h : Ordinary 0 s ms) (hc : MakesNoChange s) (ha : analyze s = .ok r) :
    (∃ xss, Both Mentioned ms xss ∧ r.references = xss.flatten) ∧ (∃ ass, Both Defined ms ass ∧ r.abbreviations = ass.flatten) ∧
      r.semantic = [] := ordinary_told h hc ha

/-- C71. An ordinary sentence is analysed unless it is blank or names a subpoint by two letters and after it one by the first of these. -/
theorem ordinary_analysed {s : Str} {ms : List Mention} (h : Ordinary 0 s ms) (hc : MakesNoChange s) (hb : ¬ Blank s) (hs : ¬ SubpointClash s) :
    ∃ r, analyze s = .ok r := ordinary_total h hc hb fun _ _ _ _ ⟨_, hw⟩ act => single_total act hw hs

/-- C71. If each list in an ordinary sentence has only one item, the sentence is analysed, and exactly one reference is reported for each
that is written, at its place, naming exactly what is written. -/
theorem single_mentions_reported {s : Str} {ms : List Mention} (h : Ordinary 0 s ms) (hc : MakesNoChange s) (hb : ¬ Blank s)
    (ho : ∀ m ∈ ms, ∀ r ∈ m.2, ∀ p ∈ r.1, ∃ x, OnlyItem p x) :
    ∃ r, analyze s = .ok r ∧ (∃ xss, Both MentionedOnce ms xss ∧ r.references = xss.flatten) ∧
      (∃ ass, Both Defined ms ass ∧ r.abbreviations = ass.flatten) ∧ r.semantic = [] := by
  have hp : ∀ m ∈ ms, ∀ r ∈ m.2, ∀ act, ∃ x, convertSingle act r.1 r.2.1 r.2.2 = .ok [x] ∧ Pointed act r x := by
    intro m hm r hr act
    obtain ⟨k, w, hw, h1, h2⟩ := ordinary_text h m hm r hr
    exact reference_pointed hw (ho m hm r hr) act _ _
  obtain ⟨r, hr⟩ := ordinary_total h hc hb fun m hm x hx _ act => by
    obtain ⟨y, hy, -⟩ := hp m hm x hx act
    exact ⟨_, hy⟩
  obtain ⟨⟨xss, h1, h2⟩, h3, h4⟩ := ordinary_told h hc hr
  exact ⟨r, hr, ⟨xss, mentions_once h1 hp, h2⟩, h3, h4⟩

/-- C71. If the ranges of each list are after its other items, the references that are reported for an ordinary sentence do not overlap and
are in the order in which they are written. -/
theorem mentions_in_order {s : Str} {ms : List Mention} {r : Analysis} (h : Ordinary 0 s ms) (hc : MakesNoChange s) (ha : analyze s = .ok r)
    (hl : ∀ m ∈ ms, ∀ x ∈ m.2, ∀ p ∈ x.1, RangesLast p) :
    (r.references.Pairwise fun x y => x.endPos ≤ y.startPos) ∧ ∀ x ∈ r.references, 0 ≤ x.startPos ∧ x.startPos < x.endPos ∧ x.endPos ≤ s.length := by
  obtain ⟨⟨xss, h1, h2⟩, -⟩ := ordinary_told h hc ha
  obtain ⟨h3, h4⟩ := ordinary_between h hl h1
  rw [h2]
  refine ⟨h4, fun x hx => ?_⟩
  have := h3 x hx
  omega

/-- C71. Every item of a list whose ranges are after its other items is named by a reference that is reported, at its place, with the act and
the last items of the levels above. -/
theorem items_reported {s : Str} {ms : List Mention} {r : Analysis} (h : Ordinary 0 s ms) (hc : MakesNoChange s) (ha : analyze s = .ok r)
    {m : Mention} (hm : m ∈ ms) {x : ParsedRef} (hx : x ∈ m.2) (hl : ∀ p ∈ x.1, RangesLast p) {i : RefItem}
    (hi : i ∈ x.1.flatMap ParsedPart.items) :
    ∃ y ∈ r.references, (∃ p, component y.reference (itemLevel i) = some p ∧ Names (x.1.flatMap ParsedPart.items) p i) ∧ Within i y ∧
      UnderLast (x.1.flatMap ParsedPart.items) y.reference (itemLevel i) ∧
      match m.1 with
      | none => y.reference.act = none
      | some a => ∃ id, ActName a id ∧ y.reference.act = some id := by
  obtain ⟨⟨xss, h1, h2⟩, -⟩ := ordinary_told h hc ha
  obtain ⟨k, w, hw, e1, e2⟩ := ordinary_text h m hm x hx
  obtain ⟨h3, h4⟩ := reference_listed hw hl
  rw [← e1, ← e2] at h3
  have hlt : x.2.1 < x.2.2 := by rw [e1, e2]; omega
  obtain ⟨xs, hxs, hmx⟩ := both_mem h1 m hm
  have key : ∀ act yss, Both (Listed act) m.2 yss → yss.flatten ⊆ xs → ∃ y ∈ r.references,
      (∃ p, component y.reference (itemLevel i) = some p ∧ Names (x.1.flatMap ParsedPart.items) p i) ∧ Within i y ∧
      UnderLast (x.1.flatMap ParsedPart.items) y.reference (itemLevel i) ∧ y.reference.act = act := by
    intro act yss hb hsub
    obtain ⟨ys, hys, hly⟩ := both_mem hb x hx
    obtain ⟨y, hy, h5, h6, h7⟩ := items_covered_partial hly h3.plain hlt hi
    refine ⟨y, ?_, h5, h6, h7, ((references_in_order_partial hly h3.plain hlt).2 y hy).2.2.2⟩
    rw [h2]
    exact List.mem_flatten.mpr ⟨xs, hxs, hsub (List.mem_flatten.mpr ⟨ys, hys, hy⟩)⟩
  cases hmx with
  | here hb => exact key none _ hb (List.Subset.refl _)
  | ofAct _ hid hb =>
    obtain ⟨y, h5, h6, h7, h8, h9⟩ := key _ _ hb (List.subset_cons_self _ _)
    exact ⟨y, h5, h6, h7, h8, _, hid, h9⟩

example : Ordinary 0 (py"A bíróság a Ptk. 5. § (1) bekezdése szerint dönt.") [courtMention] ∧
    MakesNoChange (py"A bíróság a Ptk. 5. § (1) bekezdése szerint dönt.") ∧ ¬ Blank (py"A bíróság a Ptk. 5. § (1) bekezdése szerint dönt.") ∧
    (∀ m ∈ [courtMention], ∀ r ∈ m.2, ∀ p ∈ r.1, ∃ x, OnlyItem p x) ∧
    (analyze (py"A bíróság a Ptk. 5. § (1) bekezdése szerint dönt.")).toOption = some ⟨[⟨12, 16, { act := some (py"Ptk.") }⟩,
      ⟨17, 35, { act := some (py"Ptk."), article := some (.one (py"5")), paragraph := some (.one (py"1")) }⟩], [], []⟩ := by
  refine ⟨court_ordinary, ?_, ?_, ?_, by decide +kernel⟩
  · unfold MakesNoChange EndsIn BeginsWith
    decide +kernel
  · unfold Blank
    decide
  · simp only [courtMention, forall_eq, List.mem_cons, List.not_mem_nil, or_false]
    rintro p (rfl | rfl)
    · exact ⟨_, .inl ⟨_, _, rfl, rfl, rfl⟩⟩
    · exact ⟨_, .inl ⟨_, _, rfl, rfl, rfl⟩⟩

example : Ordinary 0 (py"Az 1., 3. és 5–7. § nem alkalmazható.") [listMention] ∧ MakesNoChange (py"Az 1., 3. és 5–7. § nem alkalmazható.") ∧
    ¬ SubpointClash (py"Az 1., 3. és 5–7. § nem alkalmazható.") ∧ (∀ m ∈ [listMention], ∀ x ∈ m.2, ∀ p ∈ x.1, RangesLast p) ∧
    (analyze (py"Az 1., 3. és 5–7. § nem alkalmazható.")).toOption = some ⟨[⟨3, 5, { article := some (.one (py"1")) }⟩,
      ⟨7, 9, { article := some (.one (py"3")) }⟩, ⟨13, 19, { article := some (.range (py"5") (py"7")) }⟩], [], []⟩ := by
  refine ⟨list_ordinary, ?_, ?_, by unfold RangesLast; decide +kernel, by decide +kernel⟩
  · unfold MakesNoChange EndsIn BeginsWith
    decide +kernel
  · rintro ⟨c, d, i, j, k, l, -, -, -, h, -⟩
    have h1 : ')' ∈ told (py"Az 1., 3. és 5–7. § nem alkalmazható.") i j := by rw [h]; simp
    have h2 := List.mem_of_mem_drop (List.mem_of_mem_take (List.mem_filter.mp h1).1)
    revert h2
    decide

example : Ordinary 0 namingText [namedMention, describedMention] ∧ MakesNoChange namingText ∧
    (analyze namingText).toOption = some ⟨[⟨2, 23, { act := some (py"2012. évi II. törvény") }⟩, ⟨59, 75, { act := some (py"2013. évi V. törvény") }⟩],
      [], [⟨py"Szabs. tv.", py"2012. évi II. törvény"⟩]⟩ := by
  refine ⟨naming_ordinary, ?_, by decide +kernel⟩
  unfold MakesNoChange EndsIn BeginsWith
  decide +kernel

/-- C71. A word with a capital letter before the full stop is taken for an act: "A (2) bekezdés szerint dönt a Kormány." is reported to refer
to an act of the name "Kormány.". -/
theorem capitalised_word_is_act :
    (analyze (py"A (2) bekezdés szerint dönt a Kormány.")).toOption = some ⟨[⟨2, 14, { paragraph := some (.one (py"2")) }⟩,
      ⟨30, 38, { act := some (py"Kormány.") }⟩], [], []⟩ := by decide +kernel

end Verif.Props
