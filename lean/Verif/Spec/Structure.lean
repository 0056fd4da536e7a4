import Verif.Model.Structure

/-! # What trees, lookup and mapping should be -/

namespace Verif.Spec

/-- The objects that can be built through the constructors. The annotation `children: Tuple[Paragraph, ...]` of
`Article` is not checked by its constructor and is taken as given. -/
inductive Built : Node → Prop
  | sae {k d n} (children : Option (List Node)) (parts : ∀ cs, children = some cs → ∀ c ∈ cs, Built c)
      (made : mkSae k d children = .ok n) : Built n
  | article {i t n} (children : List Node) (parts : ∀ c ∈ children, Built c)
      (typed : ∀ c ∈ children, c.type = .sae .paragraph) (made : mkArticle i t children = .ok n) : Built n
  | quoted (lines) : Built (.quoted lines)
  | structural (e) : Built (.structural e)

/-- Articles and structural elements, the children of acts. -/
def InAct (n : Node) : Prop := n.type = .article ∨ ∃ k, n.type = .structural k

/-- `m` is `n` or somewhere below it. -/
inductive Inside : Node → Node → Prop
  | self (n) : Inside n n
  | deeper {m c n} (hc : c ∈ n.children) (h : Inside m c) : Inside m n

/-- What may stand directly below what. -/
inductive MayContain : SaeKind → NodeType → Prop
  | lettersInNumbered : MayContain .numericPoint (.sae .alphabeticSubpoint)
  | lettersInLettered : MayContain .alphabeticPoint (.sae .alphabeticSubpoint)
  | numbersInLettered : MayContain .alphabeticPoint (.sae .numericSubpoint)
  | letteredPoint : MayContain .paragraph (.sae .alphabeticPoint)
  | numberedPoint : MayContain .paragraph (.sae .numericPoint)
  | quotation : MayContain .paragraph .quoted
  | amendment : MayContain .paragraph (.sae .blockAmendmentContainer)
  | amendedArticle : MayContain .blockAmendmentContainer .article
  | amendedStructure (k) : MayContain .blockAmendmentContainer (.structural k)
  | amendedElement (k) (h : k ≠ .blockAmendmentContainer) : MayContain .blockAmendmentContainer (.sae k)

/-- One element is well formed. -/
def WellFormed : Node → Prop
  | .sae k d cs =>
    (d.text ≠ none → d.intro = none ∧ d.wrapUp = none ∧ cs = []) ∧ (∀ c ∈ cs, MayContain k c.type) ∧
    (k ≠ .blockAmendmentContainer → ∀ c ∈ cs, ∀ e ∈ cs, c.type = e.type)
  | .article _ _ cs => ∀ c ∈ cs, c.identifier = none → cs = [c]
  | _ => True

/-- The reference of a sub-article element below something with the given reference; a block amendment has none. -/
def refOf (parent : Reference) (k : SaeKind) (identifier : Option Str) : Option Reference :=
  match k with
  | .paragraph => some { parent with paragraph := identifier.map .one }
  | .alphabeticPoint | .numericPoint => some { parent with point := identifier.map .one }
  | .alphabeticSubpoint | .numericSubpoint => some { parent with subpoint := identifier.map .one }
  | .blockAmendmentContainer => none

mutual
/-- The elements that can be referred to, with their references, parents before their children. -/
def preorder (parent : Reference) : Node → List (Reference × Node)
  | .sae k d cs => match refOf parent k d.identifier with
    | none => []
    | some r => (r, .sae k d cs) :: preorderL r cs
  | _ => []

/-- The same for a list of siblings. -/
def preorderL (parent : Reference) : List Node → List (Reference × Node)
  | [] => []
  | c :: cs => preorder parent c ++ preorderL parent cs
end

mutual
/-- The elements that can be referred to, with their references, children before their parents. -/
def postorder (parent : Reference) : Node → List (Reference × Node)
  | .sae k d cs => match refOf parent k d.identifier with
    | none => []
    | some r => postorderL r cs ++ [(r, .sae k d cs)]
  | _ => []

/-- The same for a list of siblings. -/
def postorderL (parent : Reference) : List Node → List (Reference × Node)
  | [] => []
  | c :: cs => postorder parent c ++ postorderL parent cs
end

/-- The reference of an article of an act. -/
def articleRef (a : Act) (i : Str) : Reference := { act := some a.identifier, article := some (.one i) }

/-- All sub-article elements of an act, parents first. -/
def actPreorder (a : Act) : List (Reference × Node) :=
  a.children.flatMap fun c => match c with
    | .article i _ cs => preorderL (articleRef a i) cs
    | _ => []

/-- All sub-article elements of an act, children first. -/
def actPostorder (a : Act) : List (Reference × Node) :=
  a.children.flatMap fun c => match c with
    | .article i _ cs => postorderL (articleRef a i) cs
    | _ => []

/-- The elements of an act that have a number of their own at every level below the paragraph, with their references. -/
inductive ElementAt (a : Act) : Reference → Node → Prop
  | article {i t cs} (h : .article i t cs ∈ a.children) : ElementAt a (articleRef a i) (.article i t cs)
  | paragraph {r i t cs d ps} (h : ElementAt a r (.article i t cs)) (hp : .sae .paragraph d ps ∈ cs) :
      ElementAt a { r with paragraph := d.identifier.map .one } (.sae .paragraph d ps)
  | point {r d ps k e ss i} (h : ElementAt a r (.sae .paragraph d ps)) (hk : k = .alphabeticPoint ∨ k = .numericPoint)
      (hp : .sae k e ss ∈ ps) (hi : e.identifier = some i) :
      ElementAt a { r with point := some (.one i) } (.sae k e ss)
  | subpoint {r k d ps l e ss i} (h : ElementAt a r (.sae k d ps)) (hk : k = .alphabeticPoint ∨ k = .numericPoint)
      (hl : l = .alphabeticSubpoint ∨ l = .numericSubpoint)
      (hp : .sae l e ss ∈ ps) (hi : e.identifier = some i) :
      ElementAt a { r with subpoint := some (.one i) } (.sae l e ss)

/-- No two siblings have the same identifier. -/
def DistinctSiblings (cs : List Node) : Prop := (cs.filterMap Node.identifier).Nodup

/-- `m` is `n` or somewhere below it, and not in an amendment. -/
inductive Own : Node → Node → Prop
  | self (n) : Own n n
  | deeper {m c n} (hc : c ∈ n.children) (hk : c.type ≠ .sae .blockAmendmentContainer) (h : Own m c) : Own m n

/-- No two siblings in the act have the same identifier, except in amendments. -/
def DistinctIds (a : Act) : Prop :=
  DistinctSiblings a.articles ∧ ∀ c ∈ a.articles, ∀ n, Own n c → DistinctSiblings n.children

/-- The filter, if there is one, contains the reference. -/
def Selected (filter : Option Reference) (r : Reference) : Prop := ∀ f, filter = some f → f.contains r = .ok true

instance (filter : Option Reference) (r : Reference) : Decidable (Selected filter r) :=
  match filter with
  | none => isTrue (by intro f h; cases h)
  | some f => if h : f.contains r = .ok true then isTrue (by intro g e; cases e; exact h)
    else isFalse (fun k => h (k f rfl))

/-- A modifier that also writes down what it is called on. -/
def recording {σ : Type} (m : Modifier σ) : Modifier (List (Reference × Node) × σ) := fun r n s =>
  match m r n s.2 with
  | .ok (n', s') => .ok (n', s.1 ++ [(r, n)], s')
  | .error e => .error e

/-- A modifier that changes an element's own contents and leaves its children alone. -/
def editing {σ : Type} (f : Reference → SaeKind → SaeData → SaeData) : Modifier σ := fun r n s =>
  match n with
  | .sae k d cs => .ok (.sae k (f r k d) cs, s)
  | n => .ok (n, s)

mutual
/-- The element, with the own contents of every selected element in it changed by `f`. -/
def edited (sel : Reference → Bool) (f : Reference → SaeKind → SaeData → SaeData) (parent : Reference) : Node → Node
  | .sae k d cs => match refOf parent k d.identifier with
    | none => .sae k d cs
    | some r => .sae k (if sel r then f r k d else d) (editedL sel f r cs)
  | n => n

/-- The same for a list of siblings. -/
def editedL (sel : Reference → Bool) (f : Reference → SaeKind → SaeData → SaeData) (parent : Reference) :
    List Node → List Node
  | [] => []
  | c :: cs => edited sel f parent c :: editedL sel f parent cs
end

/-- The element without its children. -/
def bare : Node → Node
  | .sae k d _ => .sae k d []
  | .article i t _ => .article i t []
  | n => n

mutual
/-- `n'` is `n` with only selected elements replaced: everything else stays at its place with its own contents. -/
inductive Kept (sel : Reference → Prop) : Reference → Node → Node → Prop
  | same (p n) : Kept sel p n n
  | selected {p k d cs r} (n') (hr : refOf p k d.identifier = some r) (h : sel r) : Kept sel p (.sae k d cs) n'
  | inside {p k d cs cs' r} (hr : refOf p k d.identifier = some r) (h : KeptL sel r cs cs') :
      Kept sel p (.sae k d cs) (.sae k d cs')

/-- The same for lists of siblings, which stay equally long. -/
inductive KeptL (sel : Reference → Prop) : Reference → List Node → List Node → Prop
  | nil (p) : KeptL sel p [] []
  | cons {p c c' cs cs'} (h : Kept sel p c c') (hs : KeptL sel p cs cs') : KeptL sel p (c :: cs) (c' :: cs')
end

/-- The same for the children of an act: only articles change, and of those only what is below. -/
inductive KeptAct (sel : Reference → Prop) (a : Act) : List Node → List Node → Prop
  | nil : KeptAct sel a [] []
  | same (c) {cs cs'} (hs : KeptAct sel a cs cs') : KeptAct sel a (c :: cs) (c :: cs')
  | article {i t ps ps' cs cs'} (h : KeptL sel (articleRef a i) ps ps') (hs : KeptAct sel a cs cs') :
      KeptAct sel a (.article i t ps :: cs) (.article i t ps' :: cs')

end Verif.Spec
