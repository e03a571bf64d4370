import Verif.Model.BibItem
import Verif.Spec.EnvToken
import Verif.Spec.Files
/-! What `\bibitem`s are and what entries they should become. -/
namespace L2J.Spec

/-- `\bibitem[label]{key} text`. -/
structure BibItemText where
  /-- Blanks before the label, or before the key if there is none. -/
  before : Str
  /-- The label and the blanks behind it. -/
  label : Option (Str × Str)
  key : Str
  text : Str

def BibItemText.labelText (i : BibItemText) : Str :=
  match i.label with
  | some (l, ws) => '[' :: (l ++ ']' :: ws)
  | none => []

def BibItemText.render (i : BibItemText) : Str := "\\bibitem".toList ++ (i.before ++ (i.labelText ++ '{' :: (i.key ++ '}' :: i.text)))

/-- It can be written so: in the label no bracket is closed right before a brace, and the key does not contain a brace. -/
structure BibItemText.Ok (i : BibItemText) : Prop where
  before : ∀ c ∈ i.before, isSpace c = true
  label : ∀ l ws, i.label = some (l, ws) → (∀ c ∈ ws, isSpace c = true) ∧ ∀ u v, l = u ++ ']' :: v → (v.dropWhile isSpace).head? ≠ some '{'
  key : '}' ∉ i.key
  text : ¬ Contains i.text "\\bibitem".toList

/-- `out` is `s` with each command `w` (not followed by a letter, digit or underscore) replaced by `r`. -/
def CommandReplaced (w r s out : Str) : Prop :=
  ∃ t ts, s = t ++ ts.flatMap (w ++ ·) ∧ out = t ++ ts.flatMap (r ++ ·) ∧ (∀ x ∈ t :: ts, CommandFree noWord w x) ∧ ∀ x ∈ ts, MayFollow noWord x

/-- The author of an entry: what stands before the first comma. -/
def authorOf (s : Str) : Str := s.takeWhile (· != ',')

/-- `\bysame` stands for the author of the entry before. Without such an author it is kept. -/
inductive SameAuthor (prev : Str) : Str → Str → Prop
  | keep (t) : prev = [] ∨ authorOf prev = [] ∨ CommandFree noWord "\\bysame".toList t → SameAuthor prev t t
  | same (t t') : authorOf prev ≠ [] → '\\' ∉ authorOf prev → CommandReplaced "\\bysame".toList (authorOf prev) t t' → SameAuthor prev t t'

/-- The entries of the items, in order: items without text are left out; `prev` is the text of the entry before. -/
inductive Entries : Str → List BibItemText → List BibI.Entry → Prop
  | nil (prev) : Entries prev [] []
  | blank (prev i l es) : strip i.text = [] → Entries prev l es → Entries prev (i :: l) es
  | item (prev i l es t t') : strip i.text ≠ [] → CommandReplaced "\\newblock".toList [] (strip i.text) t → SameAuthor prev t t' → Entries t' l es →
      Entries prev (i :: l) (⟨strip i.key, (i.label.map (·.1)).bind fun x => if x = [] then none else some (strip x), t'⟩ :: es)

/-- The names of bibliography environments: `thebibliography` and the like. -/
def BibliographyName (n : Str) : Prop := (∀ c ∈ n, isWord c = true) ∧ "bibliography".toList <:+ n

/-- No bibliography environment is begun in the text. -/
def NoBibliography (s : Str) : Prop := ∀ u n v, s = u ++ ("\\begin{".toList ++ (n ++ '}' :: v)) → ¬ BibliographyName n

end L2J.Spec
