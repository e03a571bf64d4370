import Verif.Model.Token
/-! What merging adjacent text tokens means. -/
namespace L2J.Spec

/-- The item is a text token. -/
def IsText : Item → Prop
  | .tok a _ _ => a.type = .text
  | _ => False

/-- Two text tokens with the same styles. -/
def SameText : Item → Item → Prop
  | .tok a _ _, .tok b _ _ => a.type = .text ∧ b.type = .text ∧ a.styles = b.styles
  | _, _ => False

/-- No two neighbours are text tokens with the same styles. -/
def NoMergeable : List Item → Prop
  | x :: y :: l => ¬ SameText x y ∧ NoMergeable (y :: l)
  | _ => True

/-- Characters before / after which no space is wanted. -/
def noSpaceBefore : List Char := [' ', '.', ',', '!', '?', ':', ';', ')', ']', '}']
def noSpaceAfter : List Char := [' ', '(', '[', '{', '\'', '"']

/-- `s` and `t` joined, with one space in between unless a neighbouring character forbids it. -/
def joinText (s t : Str) : Str :=
  if (∃ c ∈ noSpaceBefore, t.head? = some c) ∨ (∃ c ∈ noSpaceAfter, s.getLast? = some c)
  then s ++ t else s ++ ' ' :: t

/-- The text of an item. -/
def textOf : Item → Str
  | .tok a _ _ => a.text.getD []
  | _ => []

/-- A group of neighbours that is merged into one: a single item, or text tokens with the same styles. -/
def IsRun (g : List Item) : Prop :=
  (∃ x, g = [x]) ∨ (∃ x l, g = x :: l ∧ l ≠ [] ∧ ∀ y ∈ l, SameText x y)

/-- The item a group is merged into: the first one, its text joined with the texts of the others. -/
def mergeRun : List Item → Option Item
  | [] => none
  | [x] => some x
  | .tok a t c :: l => some (.tok { a with text := some (l.foldl (fun s y => joinText s (textOf y)) (a.text.getD [])) } t c)
  | x :: _ => some x

mutual
/-- An item whose titles, contents and nested lists contain no mergeable neighbours, at any depth. Rows of
a tabular are lists of cells and are not merged themselves. -/
def CanonItem : Item → Prop
  | .raw _ => True
  | .lst l => NoMergeable l ∧ CanonItems l
  | .tok a t c =>
    NoMergeable t ∧ CanonItems t ∧ (if a.type = .tabular then CanonRows c else NoMergeable c ∧ CanonItems c)
def CanonItems : List Item → Prop
  | [] => True
  | x :: xs => CanonItem x ∧ CanonItems xs
def CanonRows : List Item → Prop
  | [] => True
  | .lst r :: xs => CanonItems r ∧ CanonRows xs
  | _ :: xs => CanonRows xs
end

end L2J.Spec
