import Verif.Spec.Heading
/-! Citations, references and links as an author writes them, and the tokens they stand for. -/
namespace L2J.Spec

/-- The optional notes of a citation, and the blanks before the brace. -/
inductive Notes
  | none
  | one (a ws : Str)
  | two (a b ws : Str)
deriving DecidableEq, Repr

/-- As written. -/
def Notes.text : Notes → Str
  | .none => []
  | .one a ws => '[' :: (a ++ ']' :: ws)
  | .two a b ws => '[' :: (a ++ ']' :: '[' :: (b ++ ']' :: ws))

/-- The notes in order. -/
def Notes.list : Notes → List Str
  | .none => []
  | .one a _ => [a]
  | .two a b _ => [a, b]

/-- No note contains the bracket that ends it, and the blanks are blanks. -/
def Notes.Ok : Notes → Prop
  | .none => True
  | .one a ws => ']' ∉ a ∧ ∀ x ∈ ws, isSpace x = true
  | .two a b ws => ']' ∉ a ∧ ']' ∉ b ∧ ∀ x ∈ ws, isSpace x = true

/-- The notes that say something, joined by a comma; nothing if there is none. -/
def Notes.title (n : Notes) : Option Str :=
  match (n.list.map strip).filter fun s => !s.isEmpty with
  | [] => Option.none
  | l => some (joinWith ", ".toList l)

/-- The natbib commands the converter knows. -/
def citeCommands : List Str := ["cite", "citep", "citet", "cites", "citealt", "citealp", "citeauthor", "citenum", "citeyear",
  "citeyearpar", "citefullauthor"].map String.toList

/-- A list of keys that can be written with commas. -/
def Keys (l : List Str) : Prop := l ≠ [] ∧ ∀ k ∈ l, ',' ∉ k

/-- A token with content and title only. -/
def plain (type : String) (content : Content.Cont) (title : Option Str) : Content.CTok :=
  { type := type.toList, content := content, title := title }

end L2J.Spec
