import Verif.Spec.Recorded
import Verif.Spec.Structural
import Verif.Proofs.Semantics
import Verif.Proofs.ActGrammar
import Verif.Proofs.Wording

/-! # The sentences of elements -/

namespace Verif

open Spec

theorem not_endsSentence {s : Str} : ¬ EndsSentence s ↔ ∀ c ∈ py".:!?", s.getLast? ≠ some c := by
  unfold EndsSentence
  constructor
  · intro h c hc hl
    exact h ⟨c, hc, hl⟩
  · rintro h ⟨c, hc, hl⟩
    exact h c hc hl

theorem written_inSentence {own core after m m' : Str} (h : ListItem own core) (hp : InSentence core after m) (hw : Written own after m') : m' = m := by
  obtain ⟨t, -, hc, hm⟩ := hw
  obtain rfl := hc core h
  rcases hm with ⟨rfl, hm⟩ | ⟨ha, rfl, hm⟩
  · cases hp with
    | asIs => rfl
    | stopped ha hn => exact absurd (hm ha) hn
  · cases hp with
    | asIs h => exact absurd (h ha) (not_endsSentence.mpr hm)
    | stopped => rfl

/-- What is said on an element is said in its sentence. -/
theorem said_in_sentence {analyze : Analyzer} {e : Entry} {s : Str} {stop stop' : Nat} {r : Analysis} (hs : SentenceOf e s stop)
    (h : Said analyze e r stop') : stop' = stop ∧ SaidIn analyze s r := by
  cases hs with
  | text own hl hm =>
    cases h with
    | text own' hw said =>
      rw [own] at own'
      cases own'
      obtain rfl := written_inSentence hl hm hw
      exact ⟨by simp, said⟩
    | intro own' => rw [own] at own'; cases own'
    | bare own' => rw [own] at own'; cases own'
  | intro own own2 hl hm =>
    cases h with
    | text own' => rw [own] at own'; cases own'
    | intro own' own3 hw said =>
      rw [own2] at own3
      cases own3
      obtain rfl := written_inSentence hl hm hw
      exact ⟨by simp, said⟩
    | bare _ own3 => rw [own2] at own3; cases own3

theorem sentenceOf_congr {e e' : Entry} {s : Str} {stop : Nat} (hb : e'.before = e.before) (ha : e'.after = e.after)
    (ht : e'.data.text = e.data.text) (hi : e'.data.intro = e.data.intro) (h : SentenceOf e' s stop) : SentenceOf e s stop := by
  cases h with
  | text own hl hm => rw [hb, ha]; rw [ha] at hm; exact .text (ht ▸ own) hl hm
  | intro own own' hl hm => rw [hb]; exact .intro (ht ▸ own) (hi ▸ own') hl hm

theorem records_of_annotated {defs : List ActIdAbbreviation} {r : Analysis} {stop : Nat} {e e' : Entry} (h : Annotated defs r stop e e') :
    Records defs r stop e' := by
  obtain ⟨refs, semantic, recorded, rfl, h1, h2, h3, h4⟩ := h
  exact ⟨refs, semantic, recorded, rfl, rfl, rfl, h1, h2, h3, h4⟩

/-! ## Telling words -/

/-- A telling word is in the text. -/
def Telling (s : Str) : Prop := ∃ w ∈ tellingWords, w <:+: s

theorem Telling.mid {u s : Str} (h : Telling u) (a b : Str) (e : s = a ++ u ++ b) : Telling s :=
  let ⟨w, hw, h⟩ := h
  ⟨w, hw, h.trans ⟨a, b, e.symm⟩⟩

theorem telling_article {n : Nat} {p : ParsedPart} {v : Str} (hp : p.kind = .article) (h : PartText n p v) : Telling v := by
  obtain ⟨items, u, e, -, he, rfl, -⟩ := h
  have h1 : Telling e := by
    rw [hp] at he
    rcases he with rfl | ⟨f, rfl, -⟩
    · exact ⟨py"§", by simp [tellingWords], [], [], rfl⟩
    · exact ⟨py"§", by simp [tellingWords], [], '-' :: f, rfl⟩
  exact h1.mid (u ++ py" ") [] (by simp)

theorem telling_reference {n : Nat} {p : ParsedPart} {ps : List ParsedPart} {v : Str} (hp : p.kind = .article) (h : ReferenceText n (p :: ps) v) :
    Telling v := by
  cases h with
  | one h => exact telling_article hp h
  | cons h _ _ => exact (telling_article hp h).mid [] _ rfl

theorem telling_insertion {n : Nat} {ps : List ParsedPart} {v : Str} (h : InsertionText n ps v) : Telling v := by
  cases h with
  | article hp h => exact (telling_reference hp h).mid (py"a következő ") [] (by simp)
  | paragraph hp _ h => exact (telling_reference hp h).mid (py"a következő ") [] (by simp)
  | under hp h => exact (telling_reference hp h).mid [] _ (by simp [List.append_assoc]; rfl)

theorem telling_replaced {x y w : Str} (h : ReplacedText x y w) : Telling w := by
  obtain ⟨u, p, k, a, v, rfl, -, -, hk, -, -⟩ := h
  have h1 : Telling k := by
    simp only [List.mem_cons, List.not_mem_nil, or_false] at hk
    rcases hk with rfl | rfl
    · exact ⟨py"hely", by simp [tellingWords], [], py"ébe", rfl⟩
    · exact ⟨py"hely", by simp [tellingWords], [], py"ett", rfl⟩
  exact h1.mid (u ++ ' ' :: p ++ py" ") (' ' :: a ++ v) (by simp)

theorem telling_replaceds {l : List (Str × Str)} {w : Str} (h : ReplacedTexts l w) : Telling w := by
  cases h with
  | one h => exact (telling_replaced h).mid [] _ rfl
  | cons h => exact (telling_replaced h).mid [] _ (by simp [List.append_assoc]; rfl)

theorem telling_replacing {w : Str} (h : Replacing w) : Telling w := by
  simp only [Replacing, List.mem_cons, List.not_mem_nil, or_false] at h
  rcases h with rfl | rfl | rfl
  · exact ⟨py"hely", by simp [tellingWords], py" ", py"ébe a következő rendelkezés lép", rfl⟩
  · exact ⟨py"hely", by simp [tellingWords], py" ", py"ébe a következő rendelkezések lépnek", rfl⟩
  · exact ⟨py"hatály", by simp [tellingWords], py" a következő szöveggel lép ", py"ba", rfl⟩

/-- Sentences that state changes are looked at. -/
theorem telling_states {s : Str} {c : Change} (h : States s c) : Telling s := by
  cases h with
  | texts _ _ _ _ hl _ => exact (telling_replaceds hl).mid _ _ rfl
  | @title o _ p x g c b _ _ q z e _ _ _ _ _ _ _ hq =>
    exact (telling_replaced hq).mid (o ++ p ++ ' ' :: x ++ (py". ") ++ g ++ ' ' :: c ++ ' ' :: b) (z ++ e) (by simp)
  | @repeal o b _ p _ v t _ ho =>
    have h1 : Telling o := by
      simp only [List.mem_cons, List.not_mem_nil, or_false] at ho
      rcases ho with rfl | rfl
      · exact ⟨py"hatály", by simp [tellingWords], py"Nem lép ", py"ba ", rfl⟩
      · exact ⟨py"Hatály", by simp [tellingWords], [], py"át veszti ", rfl⟩
    exact h1.mid [] (b ++ p ++ ' ' :: v ++ t ++ py".") (by simp)
  | @inForce o x r t i =>
    exact ⟨py"hatály", by simp [tellingWords], o ++ x ++ r ++ ' ' :: t ++ (py" lép "), (py"ba") ++ i ++ (py"."), by simp⟩
  | amend _ _ _ he => exact (telling_replacing he).mid _ _ rfl
  | @insert o _ p _ v e _ _ hr => exact (telling_insertion hr).mid (o ++ p ++ py" ") (e ++ py":") (by simp)
  | @amendInsert o _ p _ v e c w _ u f _ _ _ he =>
    exact (telling_replacing he).mid (o ++ p ++ ' ' :: v) (c ++ w ++ ' ' :: u ++ f ++ py":") (by simp)

theorem telling_helyebe (w : Str) : Telling ((py" helyébe a következő") ++ w) :=
  ⟨py"hely", by simp [tellingWords], py" ", (py"ébe a következő") ++ w, rfl⟩

theorem telling_replacingDivision {w : Str} (h : ReplacingDivision w) : Telling w := by
  rcases h with h | h
  · exact telling_replacing h
  · simp only [List.mem_cons, List.not_mem_nil, or_false] at h
    rcases h with rfl | rfl | rfl | rfl
    · exact telling_helyebe (py" lép")
    · exact telling_helyebe (py" cím lép")
    · exact telling_helyebe (py" fejezet lép")
    · exact telling_helyebe (py" rész lép")

theorem telling_replacingSubtitle {w : Str} (h : ReplacingSubtitle w) : Telling w := by
  rcases h with h | ⟨a, b, l, rfl, -⟩
  · exact telling_replacing h
  · simp only [List.append_assoc]
    exact telling_helyebe _

theorem telling_subtitled {n : Nat} {q : ParsedPart} {v : Str} (h : SubtitledText n q v) : Telling v := by
  cases h with
  | @first z v _ hk hp => exact (telling_article hk hp).mid (z ++ (py" és ")) [] (by simp)
  | @last v b a z hk hp => exact (telling_article hk hp).mid [] ((py" és ") ++ b ++ a ++ (py"megelőző ") ++ z) (by simp)

/-- Sentences that replace or repeal divisions, or add articles with a subtitle, are looked at. -/
theorem telling_structural {s : Str} {c : StructuralChange} (h : StatesStructural s c) (ha : ∀ a d, c ≠ .add a d)
    (hs : ∀ a p, c ≠ .addSubtitle a p) : Telling s := by
  cases h with
  | replace _ _ _ he => exact (telling_replacingDivision he).mid _ _ rfl
  | add => exact absurd rfl (ha _ _)
  | addToBook => exact absurd rfl (ha _ _)
  | @repeal o b _ p _ v t ho =>
    have h1 : Telling o := by
      simp only [List.mem_cons, List.not_mem_nil, or_false] at ho
      rcases ho with rfl | rfl
      · exact ⟨py"hatály", by simp [tellingWords], py"Nem lép ", py"ba ", rfl⟩
      · exact ⟨py"Hatály", by simp [tellingWords], [], py"át veszti ", rfl⟩
    exact h1.mid [] (b ++ p ++ ' ' :: v ++ t ++ py".") (by simp)
  | replaceSubtitled _ _ _ he => exact (telling_replacingSubtitle he).mid _ _ rfl
  | @addSubtitled o _ p _ v e _ _ hq => exact (telling_subtitled hq).mid (o ++ p ++ (py" a következő ")) (e ++ py":") (by simp)
  | replaceSubtitle _ _ _ _ he => exact (telling_replacingSubtitle he).mid _ _ rfl
  | addSubtitleAt => exact absurd rfl (hs _ _)
  | addSubtitle => exact absurd rfl (hs _ _)

/-! ## Sentences without telling words -/

theorem told_infix (s : Str) (a b : Nat) : told s a b <:+: squeeze s := by
  have h : slice s a b <:+: s := by
    unfold slice
    exact (List.take_prefix _ _).isInfix.trans (List.drop_suffix _ _).isInfix
  obtain ⟨u, v, h⟩ := h
  refine ⟨squeeze u, squeeze v, ?_⟩
  unfold told
  rw [← ActGrammar.squeeze_append, ← ActGrammar.squeeze_append, h]

theorem mem_of_told {s : Str} {a b : Nat} {c : Char} (h : c ∈ told s a b) : c ∈ squeeze s := (told_infix s a b).subset h

theorem char_infix {s : Str} {c : Char} (h : c ∈ s) : [c] <:+: s := by
  obtain ⟨u, v, rfl⟩ := List.append_of_mem h
  exact ⟨u, v, by simp⟩

/-- Only numbers are written without brackets and article signs. -/
theorem component_numbered {s : Str} {l : RefLevel} {p : Ident} (hb : ')' ∉ squeeze s) (ha : '§' ∉ squeeze s) (h : ComponentWritten s l p) :
    (l = .points ∨ l = .subpoints) ∧ Numbered s p := by
  have sign : ∀ {m n}, ¬ ListEnd .article (told s m n) := by
    rintro m n (e | ⟨f, e, -⟩)
    · exact ha (mem_of_told (a := m) (b := n) (by rw [e]; simp))
    · exact ha (mem_of_told (a := m) (b := n) (by rw [e]; simp))
  have no : ∀ {i j u}, told s i j ≠ u ++ py")" := fun {i j u} e => hb (mem_of_told (a := i) (b := j) (by rw [e]; simp))
  have single : ∀ {k id i j}, SingleWritten k id (told s i j) → k = .article ∨ ((kindLevel k = .points ∨ kindLevel k = .subpoints) ∧
      told s i j = id ++ py".") := by
    rintro k id i j ⟨-, h⟩
    cases k with
    | article => exact .inl rfl
    | numericPoint => exact .inr ⟨.inl rfl, h⟩
    | numericSubpoint => exact .inr ⟨.inr rfl, h⟩
    | paragraph | alphabeticPoint | alphabeticSubpoint => exact absurd h no
  cases p with
  | one id =>
    obtain ⟨k, i, j, m, n, rfl, h1, -, h2⟩ := h
    rcases single h1 with rfl | ⟨h3, h4⟩
    · exact absurd h2 sign
    · exact ⟨h3, i, j, h4⟩
  | range x y =>
    obtain ⟨k, m, n, rfl, h1, ⟨i, j, -, -, -, d, -, h2⟩ | ⟨-, a, b, c, d, -, -, h2⟩⟩ := h
    · have last : ∀ {u : Str}, told s i j = u ++ (y ++ py".") → ∃ i j, told s i j = y ++ py"." := by
        intro u e
        obtain ⟨m, -, e⟩ := told_split e
        exact ⟨m, j, e⟩
      cases k with
      | article => exact absurd h1 sign
      | paragraph | alphabeticSubpoint => exact absurd h2 no
      | alphabeticPoint =>
        obtain ⟨m, -, h2⟩ := h2
        exact absurd h2 no
      | numericPoint => exact ⟨.inl rfl, last (u := x ++ d) (by rw [h2]; simp)⟩
      | numericSubpoint => exact ⟨.inr rfl, last (u := x ++ d) (by rw [h2]; simp)⟩
    · rcases single h2 with rfl | ⟨h3, h4⟩
      · exact absurd h1 sign
      · exact ⟨h3, c, d, h4⟩

/-- Only block amendments are written without telling words. -/
theorem data_block {s : Str} {d : SemanticData} (ht : ∀ w ∈ tellingWords, ¬ w <:+: squeeze s) (h : DataWritten s d) :
    ∃ p i, d = .blockAmendment p i := by
  have ends : ∀ {u v : Str} {es : List Str}, EndsIn s es → (∀ e ∈ es, ∃ u v, e = u ++ (py"hatály") ++ v) → False := by
    rintro u v es ⟨e, he, t, h⟩ hw
    obtain ⟨u, v, rfl⟩ := hw e he
    exact ht (py"hatály") (by simp [tellingWords]) ⟨t ++ u, v, by rw [← h]; simp⟩
  have replaces : ∀ {o r}, ¬ Replaces s o r := by
    rintro o r ⟨a, b, c, d, -, -, -, x, -, y, hy, z, -, e⟩
    refine ht (py"hely") (by simp [tellingWords]) (List.IsInfix.trans ?_ (told_infix s b c))
    rw [e]
    simp only [List.mem_cons, List.not_mem_nil, or_false] at hy
    rcases hy with rfl | rfl
    · exact ⟨x, (py"ébe") ++ z, by simp⟩
    · exact ⟨x, (py"ett") ++ z, by simp⟩
  cases d with
  | blockAmendment p i => exact ⟨p, i, rfl⟩
  | enforcementDate p time repeal =>
    exfalso
    obtain ⟨-, d, w, -, -, ⟨-, h⟩ | ⟨x, q, e, t, v, -, -, -, -, -, h⟩⟩ := h
    · refine ends (u := []) (v := []) h ?_
      simp only [List.mem_cons, List.not_mem_nil, or_false, forall_eq]
      exact ⟨w ++ (py"lép"), py"ba.", by simp⟩
    · refine ends (u := []) (v := []) h ?_
      simp only [List.mem_cons, List.not_mem_nil, or_false, forall_eq]
      exact ⟨w ++ (py"lép"), (py"ba,és") ++ e ++ v ++ t ++ (py"hatályátveszti."), by simp⟩
  | textAmendment p o r => exact absurd h.1 replaces
  | articleTitleAmendment p o r => exact absurd h.1 replaces
  | repeal p t =>
    exfalso
    obtain ⟨⟨b, hb, v, h⟩, -⟩ := h
    simp only [List.mem_cons, List.not_mem_nil, or_false] at hb
    rcases hb with rfl | rfl
    · exact ht (py"hatály") (by simp [tellingWords]) ⟨py"Nemlép", (py"ba") ++ v, by rw [← h]; simp⟩
    · exact ht (py"Hatály") (by simp [tellingWords]) ⟨[], (py"átveszti") ++ v, by rw [← h]; simp⟩

theorem abbreviation_bracket {s : Str} {a : ActIdAbbreviation} (h : AbbreviationWritten s a) : ')' ∈ squeeze s := by
  obtain ⟨-, _, _, _, _, c, _, _, z, l, -, -, -, -, -, -, -, -, -, -, -, -, hc, e⟩ := h
  refine mem_of_told (a := z + a.abbreviation.length) (b := l) ?_
  rw [e]
  simp only [List.mem_cons, List.not_mem_nil, or_false] at hc
  rcases hc with rfl | rfl <;> simp

end Verif
