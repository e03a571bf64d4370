import Verif.Model.Token
/-! Properties of every token of a tree together with the tokens around it. -/
namespace L2J.Spec

mutual
/-- Every token of the item satisfies `P ancestors attributes`; ancestors are listed innermost first and
start with `anc`. (Lists inside lists and titles are not entered.) -/
def TreeI (P : List Attrs → Attrs → Prop) : List Attrs → Item → Prop
  | anc, .tok a _ c => P anc a ∧ TreeL P (a :: anc) c
  | _, _ => True
def TreeL (P : List Attrs → Attrs → Prop) : List Attrs → List Item → Prop
  | _, [] => True
  | anc, x :: xs => TreeI P anc x ∧ TreeL P anc xs
end

/-- The number of list tokens among the ancestors. -/
def listsAround (anc : List Attrs) : Nat := (anc.filter fun b => decide (b.type = .list)).length

/-- C19: a list token's depth is one more than the number of list tokens around it. -/
def DepthRight (anc : List Attrs) (a : Attrs) : Prop :=
  a.type = .list → a.depth = some (listsAround anc + 1)

/-- `b` is a heading of smaller level than `a`. -/
def LevelLt (b a : Attrs) : Prop := ∃ m n, b.level = some m ∧ a.level = some n ∧ m < n

/-- C14: a section directly inside a section has a greater level; no section is directly inside a
paragraph; a paragraph directly inside a paragraph has a greater level. -/
def HeadingsNested (anc : List Attrs) (a : Attrs) : Prop :=
  ∀ b, anc.head? = some b →
    (a.type = .section → b.type ≠ .paragraph ∧ (b.type = .section → LevelLt b a)) ∧
    (a.type = .paragraph → b.type = .paragraph → LevelLt b a)

/-- A heading: a section, a paragraph or an appendix mark. -/
def IsHeading : Item → Prop
  | .tok a _ _ => a.type = .section ∨ a.type = .paragraph ∨ a.type = .appendix
  | _ => False

/-- First the content that belongs directly to the heading, then the headings below it. -/
def HeadingsLast (l : List Item) : Prop :=
  ∃ pre post, l = pre ++ post ∧ (∀ x ∈ pre, ¬ IsHeading x) ∧ ∀ x ∈ post, IsHeading x

mutual
/-- `Q` holds of every content list inside the item. -/
def ListsI (Q : List Item → Prop) : Item → Prop
  | .tok _ _ c => Q c ∧ ListsL Q c
  | _ => True
def ListsL (Q : List Item → Prop) : List Item → Prop
  | [] => True
  | x :: xs => ListsI Q x ∧ ListsL Q xs
end

/-- `Q` holds of the document and of every content list inside it. -/
def AllLists (Q : List Item → Prop) (l : List Item) : Prop := Q l ∧ ListsL Q l

mutual
/-- No bibliography anywhere inside, and appendix marks come without content of their own. -/
def NoBib : Item → Prop
  | .tok a _ c => a.type ≠ .bibliography ∧ (a.type = .appendix → c = []) ∧ NoBibL c
  | _ => True
def NoBibL : List Item → Prop
  | [] => True
  | x :: xs => NoBib x ∧ NoBibL xs
end

/-- C13: the number of a numbered section extends the number of every numbered section around it. -/
def NumberExtends (anc : List Attrs) (a : Attrs) : Prop :=
  a.type = .section → a.numbered ≠ some false →
    ∀ b ∈ anc, b.type = .section → b.numbered ≠ some false →
      ∃ s r, b.numbering = some s ∧ a.numbering = some (s ++ '.' :: r)

mutual
/-- No section heading and no appendix mark anywhere inside. -/
def NoSec : Item → Prop
  | .tok a _ c => a.type ≠ .section ∧ a.type ≠ .appendix ∧ NoSecL c
  | _ => True
def NoSecL : List Item → Prop
  | [] => True
  | x :: xs => NoSec x ∧ NoSecL xs
end

mutual
/-- Section headings occur at top level or in the content of an appendix mark only. -/
def SecTop : Item → Prop
  | .tok a _ c => (a.type = .appendix → SecTopL c) ∧ (a.type ≠ .appendix → NoSecL c)
  | _ => True
def SecTopL : List Item → Prop
  | [] => True
  | x :: xs => SecTop x ∧ SecTopL xs
end

end L2J.Spec
