import Verif.Model.Delim
/-
Model of the table-splitting helpers of latex2json/parser/handlers/tabular.py.
A scan position is a zipper as in Model/Delim.
-/
namespace L2J

/-- tabular.py:74-81 and 90-97: how a finished part is recorded. Parts are stripped; when splitting rows,
empty parts are dropped. -/
def emitPart (rows : Bool) (cur : Str) (parts : List Str) : List Str :=
  let p := strip cur.reverse
  if rows then (if p.isEmpty then parts else p :: parts) else p :: parts

/-- tabular.py:52-97, the `while i < len(content)` loop of `split_latex_content` and its epilogue. `skip` is the
number of delimiter characters still to be jumped over (line 84), `rev` the text before the position,
reversed, `lvl` = `nesting_level` (every brace counts, escaped or not, and it may become negative),
`cur` = `current_part` reversed. The escape test of lines 52-61 is `isEscaped rev`. -/
def splitLoop (delim : Str) (rows : Bool) : Nat → Str → Int → Str → Str → List Str
  | _, _, _, cur, [] => emitPart rows cur []
  | k + 1, rev, lvl, cur, x :: rest => splitLoop delim rows k (x :: rev) lvl cur rest
  | 0, rev, lvl, cur, x :: rest =>
    if x = '{' then splitLoop delim rows 0 (x :: rev) (lvl + 1) (x :: cur) rest
    else if x = '}' then splitLoop delim rows 0 (x :: rev) (lvl - 1) (x :: cur) rest
    else if startsWith (x :: rest) delim && lvl == 0 && !isEscaped rev then
      emitPart rows cur (splitLoop delim rows (delim.length - 1) (x :: rev) lvl [] rest)
    else splitLoop delim rows 0 (x :: rev) lvl (x :: cur) rest

/-- tabular.py:31-99 `split_latex_content(content, delimiter, is_row_split)`. -/
def splitLatexContent (content delim : Str) (rows : Bool) : List Str :=
  splitLoop delim rows 0 [] 0 [] content

/-- tabular.py:102-104 `split_rows`. -/
def splitRows (table : Str) : List Str := splitLatexContent table ['\\', '\\'] true

/-- `\s*{` at the current position: the number of characters matched. -/
def spacesBrace (s : Str) : Option Nat :=
  let n := (s.takeWhile isSpace).length
  if (s.drop n).head? = some '{' then some (n + 1) else none

/-- `\s*\[[^\]]*\]` at the current position: the number of characters matched. -/
def spacesBracket (s : Str) : Option Nat :=
  let n := (s.takeWhile isSpace).length
  match s.drop n with
  | '[' :: r =>
    let m := (r.takeWhile (· != ']')).length
    if (r.drop m).head? = some ']' then some (n + m + 2) else none
  | _ => none

/-- tabular.py:26-28 `MAKECELL_SHORTSTACK_PATTERN` matched at the current position; the offset of its end.
The pattern is deterministic: when the optional bracket group matches, the text after the command name
cannot match `\s*{`, so backtracking out of the group never helps. -/
def matchMakecell (s : Str) : Option Nat :=
  let try_ (name : Str) : Option Nat :=
    if startsWith s name then
      let r := s.drop name.length
      match spacesBracket r with
      | some n => (spacesBrace (r.drop n)).map fun m => name.length + n + m
      | none => (spacesBrace r).map fun m => name.length + m
    else none
  (try_ "\\makecell".toList).or (try_ "\\shortstack".toList)

/-- `pattern.search(s)` for a matcher at a position: `(start, end)` of the leftmost match. -/
def searchWith (m : Str → Option Nat) : Str → Option (Nat × Nat)
  | [] => (m []).map fun e => (0, e)
  | c :: cs =>
    match m (c :: cs) with
    | some e => some (0, e)
    | none => (searchWith m cs).map fun p => (p.1 + 1, p.2 + 1)

/-- tabular.py:107-117 `split_cells`. A cell is `none` when Python's `None` is stored (the argument of a
`\makecell` is never closed). -/
def splitCells (row : Str) : List (Option Str) :=
  (splitLatexContent row ['&'] false).map fun cell =>
    if cell.isEmpty then some cell
    else match searchWith matchMakecell cell with
      | some (_, e) => (extractNestedContent (cell.drop (e - 1)) '{' '}').map (·.1)
      | none => some cell

end L2J
