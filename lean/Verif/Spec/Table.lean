import Verif.Spec.Tabular
import Verif.Spec.Wrapped
import Verif.Spec.Whitespace
import Verif.Model.TabularParse
/-! How a table is written, and what its cells mean. -/
namespace L2J.Spec
open L2J.Tab

/-- A text that is one cell: no separator of cells or rows in it outside braces, its braces (escaped ones included) cancel, and it
does not end in a backslash. -/
def CellText (t : Str) : Prop :=
  rawLevel t t.length = 0 ∧ (∀ i, ¬ RawCutAt t ['&'] i) ∧ (∀ i, ¬ RawCutAt t ['\\', '\\'] i) ∧ t.getLast? ≠ some '\\'

/-- Braces, escaped ones included, are balanced. -/
def RawBalanced (t : Str) : Prop := (∀ i, 0 ≤ rawLevel t i) ∧ rawLevel t t.length = 0

/-- The parts of `\multicolumn{num}{spec}{...}` or `\multirow{num}{spec}{...}` and the blanks before each of the arguments. -/
structure Span where
  w1 : Str
  num : Str
  w2 : Str
  spec : Str
  w3 : Str
deriving DecidableEq

/-- The command as written. -/
def Span.write (name : Str) (s : Span) (body : Str) : Str :=
  name ++ (s.w1 ++ '{' :: (s.num ++ '}' :: (s.w2 ++ '{' :: (s.spec ++ '}' :: (s.w3 ++ '{' :: (body ++ ['}']))))))

/-- The blanks are blanks, the number is a number, the second argument can be written in braces. -/
def Span.Ok (s : Span) : Prop :=
  (∀ x ∈ s.w1, isSpace x = true) ∧ (∀ x ∈ s.w2, isSpace x = true) ∧ (∀ x ∈ s.w3, isSpace x = true) ∧
  s.num ≠ [] ∧ (∀ x ∈ s.num, isDigit x = true) ∧ Wrappable '{' '}' s.spec ∧ RawBalanced s.spec

/-- The contents of a cell: plain text, spanning columns, spanning rows, or both. -/
inductive Src where
  | text (t : Str)
  | cols (s : Span) (body : Str)
  | rows (s : Span) (body : Str)
  | both (s : Span) (left : Str) (s' : Span) (body right : Str)

/-- A cell as written. -/
def Src.write : Src → Str
  | .text t => t
  | .cols s b => s.write "\\multicolumn".toList b
  | .rows s b => s.write "\\multirow".toList b
  | .both s l s' b r => s.write "\\multicolumn".toList (l ++ (s'.write "\\multirow".toList b ++ r))

/-- A text without any command that the reader of tables looks for. -/
def Quiet (t : Str) : Prop :=
  ¬ Contains t "\\multicolumn".toList ∧ ¬ Contains t "\\multirow".toList ∧ ¬ Contains t "\\makecell".toList ∧
  ¬ Contains t "\\shortstack".toList

/-- The texts are in order. -/
def Src.Ok : Src → Prop
  | .text t => CellText t ∧ Quiet t
  | .cols s b => s.Ok ∧ Wrappable '{' '}' b ∧ RawBalanced b ∧ Quiet s.spec ∧ Quiet b
  | .rows s b => s.Ok ∧ Wrappable '{' '}' b ∧ RawBalanced b ∧ Quiet s.spec ∧ Quiet b
  | .both s l s' b r => s.Ok ∧ s'.Ok ∧ (∀ x ∈ l, isSpace x = true) ∧ (∀ x ∈ r, isSpace x = true) ∧ Wrappable '{' '}' b ∧
      RawBalanced b ∧ Quiet s.spec ∧ Quiet s'.spec ∧ Quiet b

/-- What the cell holds. -/
def Src.body : Src → Str
  | .text t => t
  | .cols _ b => b
  | .rows _ b => b
  | .both _ _ _ b _ => b

/-- The number of columns the cell spans. -/
def Src.colspan : Src → Nat
  | .cols s _ => digitsVal s.num
  | .both s _ _ _ _ => digitsVal s.num
  | _ => 1

/-- The number of rows the cell spans. -/
def Src.rowspan : Src → Nat
  | .rows s _ => digitsVal s.num
  | .both _ _ s' _ _ => digitsVal s'.num
  | _ => 1

/-- The parsed cell that is expected: its content without blanks at the ends, and its spans unless both are (at most) 1. -/
def Src.meaning {α} (f : Str → α) (s : Src) : PCell α :=
  if s.rowspan ≤ 1 ∧ s.colspan ≤ 1 then .plain (f (strip s.body)) else .span (f (strip s.body)) s.rowspan s.colspan

/-- A cell with blanks around it. -/
structure Cell where
  before : Str
  src : Src
  after : Str

def Cell.write (c : Cell) : Str := c.before ++ (c.src.write ++ c.after)
def Cell.Ok (c : Cell) : Prop := (∀ x ∈ c.before, isSpace x = true) ∧ (∀ x ∈ c.after, isSpace x = true) ∧ c.src.Ok

/-- The table: cells separated by `&`, rows separated by `\\`. -/
def tableText (rows : List (List Cell)) : Str := joinWith ['\\', '\\'] (rows.map fun r => joinWith ['&'] (r.map Cell.write))

/-- Nothing but blanks between two `\\`. -/
def blankRow (r : List Cell) : Bool := (joinWith ['&'] (r.map Cell.write)).all isSpace

/-- The first row is dropped if all its cells are empty. -/
def dropFirst {β} (empty : β → Bool) : List (List β) → List (List β)
  | [] => []
  | r :: rs => if r.all empty then rs else r :: rs

/-- The first row is dropped if all its cells are empty, then the last one. -/
def dropEnds {β} (empty : β → Bool) (rows : List (List β)) : List (List β) :=
  (dropFirst empty (dropFirst empty rows).reverse).reverse

end L2J.Spec
