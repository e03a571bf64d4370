import Verif.Model.Token
/-! Reading a token tree in document order. -/
namespace L2J.Spec

/-- A node met while reading a tree in preorder. -/
inductive Node where
  | raw (s : Str)
  | lst (l : List Item)
  | tok (a : Attrs) (title : List Item)

/-- A node together with the number of list tokens enclosing it. -/
structure Ev where
  node : Node
  lists : Nat

mutual
/-- Preorder reading of an item with `e` list tokens around it; tokens selected by `skip` are left out
together with everything inside them. -/
def flatItem (skip : Attrs → Bool) : Item → Nat → List Ev
  | .raw s, e => [⟨.raw s, e⟩]
  | .lst l, e => [⟨.lst l, e⟩]
  | .tok a t c, e =>
    if skip a then []
    else ⟨.tok a t, e⟩ :: flatList skip c (if a.type = .list then e + 1 else e)
/-- Preorder reading of a token list. -/
def flatList (skip : Attrs → Bool) : List Item → Nat → List Ev
  | [], _ => []
  | x :: xs, e => flatItem skip x e ++ flatList skip xs e
end

/-- Nothing is left out. -/
def noSkip : Attrs → Bool := fun _ => false

/-- Bibliographies are left out. -/
def skipBib (a : Attrs) : Bool := decide (a.type = .bibliography)

mutual
/-- Shape of parser output: text tokens have no list content; a tabular's content is a list of rows. -/
def Shaped : Item → Prop
  | .tok a _ c => (a.type = .text → c = []) ∧ (a.type = .tabular → ∀ x ∈ c, ∃ r, x = .lst r) ∧ ShapedL c
  | _ => True
def ShapedL : List Item → Prop
  | [] => True
  | x :: xs => Shaped x ∧ ShapedL xs
end

mutual
/-- No numbered token, section heading or appendix mark anywhere inside. -/
def Inert : Item → Prop
  | .tok a _ c => a.numbered ≠ some true ∧ a.type ≠ .section ∧ a.type ≠ .appendix ∧ InertL c
  | _ => True
def InertL : List Item → Prop
  | [] => True
  | x :: xs => Inert x ∧ InertL xs
end

mutual
/-- Token trees as the parser produces them below top level: headings carry no content of their own,
no appendix mark inside another token, skipped tokens are inert. -/
def Plain (skip : Attrs → Bool) : Item → Prop
  | .tok a _ c =>
    a.type ≠ .appendix ∧
    (a.type = .section ∨ a.type = .paragraph → c = []) ∧
    (skip a = true → InertL c) ∧ PlainL skip c
  | _ => True
def PlainL (skip : Attrs → Bool) : List Item → Prop
  | [] => True
  | x :: xs => Plain skip x ∧ PlainL skip xs
end

/-- Top level: additionally, appendix tokens with plain content. -/
def TopPlain (skip : Attrs → Bool) (x : Item) : Prop :=
  Plain skip x ∨ ∃ a t c, x = .tok a t c ∧ a.type = .appendix ∧ PlainL skip c

/-- The (attributes of the) tokens satisfying `p`, in document order. -/
def attrsOf (p : Attrs → Bool) (evs : List Ev) : List Attrs :=
  evs.filterMap fun ev => match ev.node with
    | .tok a _ => if p a then some a else none
    | _ => none

/-- Tokens of a given type, numbered or not. -/
def isNumbered (k : TType) (a : Attrs) : Bool := decide (a.type = k ∧ a.numbered = some true)
def isUnnumbered (k : TType) (a : Attrs) : Bool := decide (a.type = k ∧ a.numbered ≠ some true)

/-- Section headings that take part in the numbering. -/
def isNumberedSection (a : Attrs) : Bool := decide (a.type = .section ∧ a.numbered ≠ some false)

/-- Appendix marks. -/
def isAppendix (a : Attrs) : Bool := decide (a.type = .appendix)

/-- What makes theorem-like environments start over without a new section number: an appendix mark or an
unnumbered top-level section. -/
def restartsTheorems (a : Attrs) : Bool :=
  decide (a.type = .appendix ∨ a.type = .section ∧ a.level = some 1 ∧ a.numbered = some false)

/-- The four kinds with a simple document-wide counter. -/
def simpleKinds : List TType := [.equation, .table, .figure, .algorithm]

/-- A container token: one whose content list can receive later tokens. -/
def Container (a : Attrs) : Prop :=
  a.type = .section ∨ a.type = .paragraph ∨ a.type = .appendix

/-- The item is a token of the given type. -/
def _root_.L2J.Item.hasType (ty : TType) : Item → Prop
  | .tok a _ _ => a.type = ty
  | _ => False

/-- Kinds whose number may be changed by the builder. -/
def givesNumber (a : Attrs) : Bool :=
  decide (a.type = .section ∧ a.numbered ≠ some false) ||
  (decide (a.numbered = some true) && decide (a.type ∈ TType.math_env :: simpleKinds))

/-- Attributes the builder never changes, whatever the token. -/
def _root_.L2J.Attrs.core (a : Attrs) : TType × Option Nat × Option Bool × Option (List Str) × Bool × Str :=
  (a.type, a.level, a.numbered, a.styles, a.titleIsList, a.extra)

/-- How a node may differ before and after organising. -/
structure Kept (ev ev' : Ev) : Prop where
  lists : ev'.lists = ev.lists
  node : match ev.node, ev'.node with
    | .raw s, .raw s' => s' = s
    | .lst l, .lst l' => l' = l
    | .tok a t, .tok a' t' => t' = t ∧ a'.core = a.core ∧
        (a'.depth = if a.type = .list then some (ev.lists + 1) else a.depth) ∧
        (¬ Container a → a'.text = a.text ∧ a'.hasList = a.hasList) ∧
        (givesNumber a = false → a'.numbering = a.numbering)
    | _, _ => False

/-- Pairwise relation of two lists of the same length. -/
inductive AllKept : List Ev → List Ev → Prop
  | nil : AllKept [] []
  | cons (ev ev' evs evs') : Kept ev ev' → AllKept evs evs' → AllKept (ev :: evs) (ev' :: evs')

end L2J.Spec
