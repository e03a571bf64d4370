import Verif.Spec.Table
import Verif.Model.TabularHandler
import Verif.Spec.Nested
import Verif.Spec.Flatten
import Verif.Spec.Wrapped
/-! How a whole tabular environment is written. -/
namespace L2J.Spec

/-- The environments that are tables. -/
def tableKinds : List Str := ["tabular".toList, "longtable".toList, "tabularx".toList, "tabulary".toList]

/-- A table as written: the blanks after `\begin`, the environment, whether it has a star, the position in brackets, the arguments in braces (each with the blanks before
it), what follows them, and the blanks after `\end`. -/
structure TableSrc where
  gap : Str
  kind : Str
  star : Bool
  pos : Option (Str × Str)
  args : List (Str × Str)
  body : Str
  gap' : Str

/-- The name of the environment. -/
def TableSrc.env (t : TableSrc) : Str := t.kind ++ (if t.star then ['*'] else [])

/-- What stands between `\begin{…}` and `\end{…}`. -/
def TableSrc.inner (t : TableSrc) : Str :=
  (match t.pos with | none => [] | some p => p.1 ++ '[' :: (p.2 ++ [']'])) ++ (wrapAll '{' '}' t.args ++ t.body)

/-- The table. -/
def TableSrc.write (t : TableSrc) : Str :=
  ("\\begin".toList ++ t.gap ++ '{' :: (t.env ++ ['}'])) ++ t.inner ++ ("\\end".toList ++ t.gap' ++ '{' :: (t.env ++ ['}']))

/-- It is in order: one argument (`\begin{tabular}{cc}`) not followed by another group, or two (`\begin{tabularx}{4cm}{cc}`). -/
structure TableSrc.Ok (t : TableSrc) : Prop where
  gap : ∀ x ∈ t.gap, isSpace x = true
  gap' : ∀ x ∈ t.gap', isSpace x = true
  kind : t.kind ∈ tableKinds
  pos : ∀ p ∈ t.pos, (∀ x ∈ p.1, isSpace x = true) ∧ Wrappable '[' ']' p.2
  args : WellWrapped '{' '}' t.args
  count : t.args.length = 2 ∨ (t.args.length = 1 ∧ (t.body.dropWhile isSpace).head? ≠ some '{')
  inner : EnvBody t.env t.inner

/-- The specification of the columns: the last argument. -/
def TableSrc.spec (t : TableSrc) : Str := (t.args.getLast?.map (·.2)).getD []

open Flat Tab

/-- What a cell holds when its text was read to these tokens: nothing, one piece of unstyled text, or tokens. -/
def cellHolds {β} : List (FTok β) → Value β
  | [] => .null
  | [⟨some s, none, _⟩] => if s = [] then .null else .text s
  | l => .toks l

/-- A cell of a table after the first reading: stretches of text, each followed by an object (a formula, an image, …), and a last stretch. -/
structure RCell (β : Type) where
  parts : List (Str × FTok β)
  last : Str

/-- A text that is no separator and no group, has no commands and nothing like a reference. -/
def Word (s : Str) : Prop := '\\' ∉ s ∧ '{' ∉ s ∧ '}' ∉ s ∧ '&' ∉ s ∧ ¬ Confusing s

/-- The texts are in order, the objects are not texts. -/
def RCell.Ok {β} (c : RCell β) : Prop := (∀ e ∈ c.parts, Word e.1 ∧ e.2.inline = none) ∧ Word c.last

/-- Its tokens, in order. -/
def RCell.toks {β} (bare : β) (c : RCell β) : List (FTok β) :=
  c.parts.flatMap (fun e => [⟨some e.1, none, bare⟩, e.2]) ++ [⟨some c.last, none, bare⟩]

/-- Lists with a separator between them. -/
def glue {α} (sep : List α) : List (List α) → List α
  | [] => []
  | [x] => x
  | x :: y :: l => x ++ sep ++ glue sep (y :: l)

/-- The tokens of a table: a text `&` between cells, a text `\\\\` between rows. -/
def tableToks {β} (bare : β) (rows : List (List (RCell β))) : List (FTok β) :=
  glue [⟨some ['\\', '\\'], none, bare⟩] (rows.map fun r => glue [⟨some ['&'], none, bare⟩] (r.map (RCell.toks bare)))

/-- The cell without blanks at its ends. -/
def RCell.trim {β} (c : RCell β) : RCell β :=
  match c.parts with
  | [] => ⟨[], strip c.last⟩
  | e :: l => ⟨(lstrip e.1, e.2) :: l, rstrip c.last⟩

/-- The text of the cell when its objects are numbered from `n` on. -/
def RCell.text {β} (n : Nat) (c : RCell β) : Str := weave (c.parts.mapIdx fun i e => (e.1, placeholder (n + i))) c.last

/-- What the cell holds: read as text if there are no objects in it, otherwise its texts and objects in order. -/
def RCell.value {β} (bare : β) (parse : Str → List (FTok β)) (c : RCell β) : Value β :=
  match c.parts with
  | [] => cellHolds (parse (strip c.last))
  | _ => .toks (unruns bare (c.trim.parts, c.trim.last))

/-- A cell that holds nothing, alone in its place. -/
def emptyCell {β} : PCell (Value β) → Bool
  | .plain .null => true
  | .plain (.text []) => true
  | .plain (.toks []) => true
  | _ => false

/-- Nothing but blanks. -/
def RCell.blankRow {β} : List (RCell β) → Bool
  | [c] => c.parts.isEmpty && c.last.all isSpace
  | _ => false

end L2J.Spec
