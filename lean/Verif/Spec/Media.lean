import Verif.Spec.Cite
import Verif.Lemmas.NatStr
/-! Pictures, notes, captions, titles and included files as an author writes them. -/
namespace L2J.Spec

/-- An optional argument in brackets, and the blanks between it (or the name) and the brace. -/
inductive Opt
  | absent (ws : Str)
  | given (a ws : Str)
deriving DecidableEq, Repr

/-- As written. -/
def Opt.text : Opt → Str
  | .absent ws => ws
  | .given a ws => '[' :: (a ++ ']' :: ws)

/-- The argument does not contain the bracket that ends it, and the blanks are blanks. -/
def Opt.Ok : Opt → Prop
  | .absent ws => ∀ x ∈ ws, isSpace x = true
  | .given a ws => ']' ∉ a ∧ ∀ x ∈ ws, isSpace x = true

/-- What it says. -/
def Opt.value : Opt → Option Str
  | .absent _ => none
  | .given a _ => some a

/-- The value of the first `key` in a list of options that has one: `read` reads it from the text behind the key. -/
def keyIn {α} (key : Str) (read : Str → Option α) : Str → Option α
  | [] => none
  | c :: cs =>
    match (if key.isPrefixOf (c :: cs) then read ((c :: cs).drop key.length) else none) with
    | some v => some v
    | none => keyIn key read cs

/-- The decimal number a text begins with. -/
def numberAt (s : Str) : Option Nat :=
  match s.takeWhile isDigit with
  | [] => none
  | ds => some (decVal ds)

/-- A character of a page range: digits, dashes and commas. -/
def pageChar (c : Char) : Bool := ('0' ≤ c && c ≤ '9') || c == '-' || c == ','

/-- The page range a text begins with. -/
def rangeAt (s : Str) : Option Str :=
  match s.takeWhile pageChar with
  | [] => none
  | r => some r

/-- The page range a text begins with, in braces or without. -/
def pagesAt (s : Str) : Option Str :=
  match s with
  | '{' :: r => if (r.dropWhile pageChar).head? = some '}' then rangeAt r else none
  | s => rangeAt s

end L2J.Spec
