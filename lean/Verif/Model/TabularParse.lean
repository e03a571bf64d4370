import Verif.Model.Tabular
import Verif.Model.Args
import Verif.Model.Regex
import Verif.Model.Token
/-! Model of `parse_tabular` and `extract_table_structures`, latex2json/parser/handlers/tabular.py:120-245. -/
namespace L2J.Tab

/-- `\\multicolumn\s*{(\d+)}\s*{` and `\\multirow\s*{(\d+)}\s*{` matched at the current position, tabular.py:22-23: the digits and the
offset of the end of the match. The patterns are deterministic. (`\d` on ASCII digits.) -/
def matchSpan (name s : Str) : Option (Str × Nat) :=
  if startsWith s name then
    let r := s.drop name.length
    match spacesBrace r with
    | none => none
    | some a =>
      let ds := (r.drop a).takeWhile isDigit
      if ds.isEmpty then none
      else
        match r.drop (a + ds.length) with
        | '}' :: r2 => (spacesBrace r2).map fun b => (ds, name.length + a + ds.length + 1 + b)
        | _ => none
  else none

/-- The name in `MULTICOLUMN_PATTERN`, tabular.py:22. -/
def mcol : Str := "\\multicolumn".toList
/-- The name in `MULTIROW_PATTERN`, tabular.py:23. -/
def mrow : Str := "\\multirow".toList

/-- `PATTERN.search(content)`: digits, start and end of the leftmost match. -/
def searchSpan (name s : Str) : Option (Str × Nat × Nat) :=
  match searchWith (fun t => (matchSpan name t).map (·.2)) s with
  | none => none
  | some (a, e) => (matchSpan name (s.drop a)).map fun m => (m.1, a, e)

/-- tabular.py:148-155 and :158-165: one kind of span is looked for in the cell; the new content and the number. -/
def takeSpan (name content : Str) : Str × Nat :=
  match searchSpan name content with
  | none => (content, 1)
  | some (ds, _, e) =>
    let blocks := (seqBlocks (content.drop (e - 1)) '{' '}' (some 2)).1
    ((match blocks.getLast? with | some b => strip b | none => []), digitsVal ds)

/-- A parsed cell, tabular.py:167-176: the content alone, or a dictionary with the spans. -/
inductive PCell (α : Type) where
  | plain (a : α)
  | span (a : α) (rowspan colspan : Nat)
deriving DecidableEq

/-- tabular.py:141-177: one cell. `f` is `cell_parser_fn` (the identity if there is none). -/
def parseCell {α} (f : Str → α) (cell : Str) : PCell α :=
  let c := takeSpan mcol cell
  let r := takeSpan mrow c.1
  if 1 < r.2 ∨ 1 < c.2 then .span (f r.1) r.2 c.2 else .plain (f r.1)

/-- The truth value of a parsed cell: a dictionary is true; `truthy` decides for contents. -/
def PCell.truthy {α} (truthy : α → Bool) : PCell α → Bool
  | .plain a => truthy a
  | .span _ _ _ => true

/-- tabular.py:141-177 over the cells of a row. `none`: `re.search` on `None` (an unclosed `\makecell`) raises a TypeError. -/
def parseCells {α} (f : Str → α) : List (Option Str) → Option (List (PCell α))
  | [] => some []
  | none :: _ => none
  | some c :: cs => (parseCells f cs).map (parseCell f c :: ·)

/-- tabular.py:135-180, the loop over the rows: rows from `split_rows` are stripped and not empty, and `split_cells` returns at
least one cell, so the tests of lines 136 and 180 succeed. -/
def parseRows {α} (f : Str → α) : List Str → Option (List (List (PCell α)))
  | [] => some []
  | r :: rs => (parseCells f (splitCells (strip r))).bind fun cs => (parseRows f rs).map (cs :: ·)

/-- tabular.py:183-186: an empty first row is removed. -/
def trimFirst {α} (t : PCell α → Bool) : List (List (PCell α)) → List (List (PCell α))
  | [] => []
  | r :: rs => if r.any t then r :: rs else rs

/-- tabular.py:187-190: an empty last row is removed. -/
def trimLast {α} (t : PCell α → Bool) (rows : List (List (PCell α))) : List (List (PCell α)) :=
  match rows.getLast? with
  | none => rows
  | some l => if l.any t then rows else rows.dropLast

/-- tabular.py:182-192. -/
def trimRows {α} (t : PCell α → Bool) (rows : List (List (PCell α))) : List (List (PCell α)) := trimLast t (trimFirst t rows)

/-- `parse_tabular`, tabular.py:120-192. `none`: a TypeError. -/
def parseTabular {α} (f : Str → α) (truthy : α → Bool) (table : Str) : Option (List (List (PCell α))) :=
  (parseRows f (splitRows table)).map (trimRows (PCell.truthy truthy))

/-- `` f"`|TABLE_STRUCT_{ref_counter}|`" ``, tabular.py:225. -/
def structKey (n : Nat) : Str := "`|TABLE_STRUCT_".toList ++ natStr n ++ "|`".toList

/-- A pattern of tabular.py:202-206: start and end of its leftmost match. -/
abbrev Pat := Str → Option (Nat × Nat)

/-- tabular.py:202-206: the patterns with their numbers of blocks. -/
def structPatterns : List (Pat × Nat) :=
  [(fun s => (searchSpan mcol s).map (·.2), 2), (fun s => (searchSpan mrow s).map (·.2), 2), (searchWith matchMakecell, 1)]

/-- The loop of tabular.py:208-243 for one pattern, on `current_content[pos:]`; `n` is `ref_counter`. Returns the new text and the
entries of `reference_map`. The fuel bounds the number of iterations; each one consumes a character. -/
def structLoop (p : Pat) (blocks : Nat) : Nat → Nat → Str → Str × List (Str × Str)
  | 0, _, s => (s, [])
  | fuel + 1, n, s =>
    match p s with
    | none => (s, [])
    | some (a, e) =>
      let start := e - 1
      let r := seqBlocks (s.drop start) '{' '}' (some blocks)
      if r.1.isEmpty then
        let q := structLoop p blocks fuel n (s.drop (start + 1))
        (s.take (start + 1) ++ q.1, q.2)
      else
        let q := structLoop p blocks fuel (n + 1) (s.drop (start + r.2))
        (s.take a ++ structKey n ++ q.1, (structKey n, slice s a (start + r.2)) :: q.2)

/-- The loop over the patterns, tabular.py:208. -/
def structAll : List (Pat × Nat) → Nat → Str → Str × List (Str × Str)
  | [], _, s => (s, [])
  | (p, b) :: ps, n, s =>
    let r := structLoop p b (s.length + 1) n s
    let q := structAll ps (n + r.2.length) r.1
    (q.1, r.2 ++ q.2)

/-- `extract_table_structures(content)`, tabular.py:195-245. -/
def extractStructures (content : Str) : Str × List (Str × Str) := structAll structPatterns 0 content

/-- tabular.py:351-354: the structures are put back. -/
def restoreStructures (text : Str) (m : List (Str × Str)) : Str := m.foldl (fun c b => replace c b.1 b.2) text

end L2J.Tab
