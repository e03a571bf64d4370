import Verif.Model.Author
import Verif.Spec.Delim
/-! What author commands give. -/
namespace L2J.Spec

/-- The same word but for upper and lower case. -/
def SameWord (kw w : Str) : Prop := w.map Char.toLower = kw

/-- `\and`, in any case, does not stand in the text as a word. -/
def AndFree (t : Str) : Prop := ∀ u w r, t = u ++ (w ++ r) → SameWord "\\and".toList w → ∃ c ∈ r.head?, isWord c = true

/-- The texts between the words `\and`. -/
inductive AndParts : Str → List Str → Prop
  | last (t) : AndFree t → AndParts t [t]
  | cons (t w r ps) : AndFree t → SameWord "\\and".toList w → (∀ c ∈ r.head?, isWord c = false) → AndParts r ps → AndParts (t ++ (w ++ r)) (t :: ps)

/-- An optional argument, with blanks before it. No bracket in it is followed by blanks and a brace. -/
inductive OptArg : Str → Prop
  | none : OptArg []
  | some (ws o) : (∀ c ∈ ws, isSpace c = true) → (∀ u b v, o = u ++ ']' :: (b ++ '{' :: v) → ∃ c ∈ b, isSpace c = false) → OptArg (ws ++ '[' :: (o ++ [']']))

/-- Commands for one text each: the name, the type of the token, and whether there may be an optional argument. -/
def authorFields : List (String × String × Bool) :=
  [("\\email", "email", false), ("\\affil", "affiliation", true), ("\\affiliation", "affiliation", true), ("\\address", "address", false)]

end L2J.Spec
