import Verif.Spec.Delim
import Verif.Model.Bib
/-! What the fields of a BibTeX entry are. From the model only the character classes, `strip`, `lower` and the
record of an entry are used. -/
namespace L2J.Spec

/-- Whitespace and commas. -/
def IsSep (sep : Str) : Prop := ∀ c ∈ sep, isSpace c = true ∨ c = ','

/-- A non-empty run of word characters. -/
def IsName (name : Str) : Prop := name ≠ [] ∧ ∀ c ∈ name, isWord c = true

/-- Whitespace. -/
def IsBlank (ws : Str) : Prop := ∀ c ∈ ws, isSpace c = true

/-- A text is the list of fields `name = {value}` or `name = "value"`, separated by commas and whitespace; braced
values are balanced, quoted ones contain no quote. Braced values are listed trimmed. -/
inductive FieldText : Str → List (Str × Str) → Prop
  | done (sep) : IsSep sep → FieldText sep []
  | braced (sep name ws1 ws2 v rest fs) : IsSep sep → IsName name → IsBlank ws1 → IsBlank ws2 →
      Balanced v '{' '}' → escapedAt v v.length = false → FieldText rest fs →
      FieldText (sep ++ (name ++ (ws1 ++ '=' :: (ws2 ++ '{' :: (v ++ '}' :: rest))))) ((name, strip v) :: fs)
  | quoted (sep name ws1 ws2 q rest fs) : IsSep sep → IsName name → IsBlank ws1 → IsBlank ws2 →
      '"' ∉ q → FieldText rest fs →
      FieldText (sep ++ (name ++ (ws1 ++ '=' :: (ws2 ++ '"' :: (q ++ '"' :: rest))))) ((name, q) :: fs)

/-- The value of field `k`: the last one given, names being case-insensitive. -/
def lastValue (fs : List (Str × Str)) (k : Str) : Option Str :=
  (fs.reverse.find? fun f => lower f.1 = k).map (·.2)

/-- The fields of an amsrefs entry: `name = {value}`, separated by commas and whitespace. -/
inductive DivText : Str → List (Str × Str) → Prop
  | done (sep) : IsSep sep → DivText sep []
  | braced (sep name ws1 ws2 v rest fs) : IsSep sep → IsName name → IsBlank ws1 → IsBlank ws2 →
      '{' ∉ v → '}' ∉ v → escapedAt v v.length = false → DivText rest fs →
      DivText (sep ++ (name ++ (ws1 ++ '=' :: (ws2 ++ '{' :: (v ++ '}' :: rest))))) ((name, strip v) :: fs)

/-- All values given for field `k`, in order; names are case-insensitive. -/
def allValues (fs : List (Str × Str)) (k : Str) : List Str := (fs.filter fun f => lower f.1 = k).map (·.2)

/-- A text without braces, backslashes, commas and `@`. -/
def PlainKey (s : Str) : Prop := ∀ c ∈ s, c ≠ '{' ∧ c ≠ '}' ∧ c ≠ '\\' ∧ c ≠ ',' ∧ c ≠ '@'

/-- An entry in the normal form in which the parser produces them. -/
structure NormalEntry (e : BibEntry) : Prop where
  ty : IsName e.entryType
  tyLower : lower e.entryType = e.entryType
  key : PlainKey e.key
  keyTrim : strip e.key = e.key
  names : ∀ f ∈ e.fields, IsName f.1 ∧ lower f.1 = f.1
  nodup : (e.fields.map (·.1)).Nodup
  values : ∀ f ∈ e.fields, Balanced f.2 '{' '}' ∧ escapedAt f.2 f.2.length = false ∧ strip f.2 = f.2 ∧ '@' ∉ f.2

end L2J.Spec
