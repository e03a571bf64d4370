import Verif.Model.PyStr
/-
Model of the delimiter-matching helpers in latex2json/utils/tex_utils.py.
A scan position `i` in `text` is a zipper: `rev` = `text[:i]` reversed, `rest` = `text[i:]`.
-/
namespace L2J

/-- tex_utils.py:8-15 (and the identical second copy 310-317) `count_preceding_backslashes`:
length of the run of backslashes just before the position; `rev` is `text[:pos]` reversed. -/
def countPrecedingBackslashes : Str → Nat
  | [] => 0
  | c :: rev => if c == '\\' then countPrecedingBackslashes rev + 1 else 0

/-- tex_utils.py:18-20 (and 320-322) `is_escaped(pos, text)`, at the zipper position. -/
def isEscaped (rev : Str) : Bool := countPrecedingBackslashes rev % 2 == 1

/-- tex_utils.py:45-58, the `while i < len(text)` loop of `find_matching_delimiter`.
`depth` = `len(stack)` (the stack's contents are never read). Returns `i + 1` at the matching
closing delimiter, `none` for `-1`. -/
def findMatchLoop (o c : Char) (rev : Str) (depth : Nat) : Str → Option Nat
  | [] => none
  | x :: rest =>
    if x == o && !isEscaped rev then findMatchLoop o c (x :: rev) (depth + 1) rest
    else if x == c && !isEscaped rev then
      if depth = 0 then none
      else if depth = 1 then some (rev.length + 1)
      else findMatchLoop o c (x :: rev) (depth - 1) rest
    else findMatchLoop o c (x :: rev) depth rest

/-- tex_utils.py:38-39: advance the zipper over whitespace. -/
def skipSpace (rev : Str) : Str → Str × Str
  | [] => (rev, [])
  | x :: rest => if isSpace x then skipSpace (x :: rev) rest else (rev, x :: rest)

/-- tex_utils.py:23-60 `find_matching_delimiter(text, open_delim, close_delim, start)`;
`none` stands for `(-1, -1)`. -/
def findMatchingDelimiter (text : Str) (o c : Char) (start : Nat) : Option (Nat × Nat) :=
  match skipSpace (text.take start).reverse (text.drop start) with
  | (_, []) => none
  | (rev, x :: rest) =>
    if x != o then none
    else (findMatchLoop o c rev 0 (x :: rest)).map fun e => (rev.length, e)

/-- tex_utils.py:63-78 `extract_nested_content`; `none` stands for `(None, 0)`. -/
def extractNestedContent (text : Str) (o c : Char) : Option (Str × Nat) :=
  match findMatchingDelimiter text o c 0 with
  | none => none
  | some (s, e) => some (slice text (s + 1) (e - 1), e)

/-- tex_utils.py:387-402 `check_delimiter_balance` (loop; `depth` = `len(stack)`). -/
def checkBalanceLoop (o c : Char) (rev : Str) (depth : Nat) : Str → Bool
  | [] => depth == 0
  | x :: rest =>
    if x == o && !isEscaped rev then checkBalanceLoop o c (x :: rev) (depth + 1) rest
    else if x == c && !isEscaped rev then
      if depth = 0 then false else checkBalanceLoop o c (x :: rev) (depth - 1) rest
    else checkBalanceLoop o c (x :: rev) depth rest

/-- tex_utils.py:387-402 `check_delimiter_balance`. -/
def checkDelimiterBalance (text : Str) (o c : Char) : Bool := checkBalanceLoop o c [] 0 text

/-- tex_utils.py:411-426, loop of `find_delimiter_end`. Positions are absolute. -/
def findDelimEndLoop (delim : Str) (rev : Str) (depth : Nat) : Str → Option Nat
  | [] => none
  | x :: rest =>
    if x == '{' && !isEscaped rev then findDelimEndLoop delim (x :: rev) (depth + 1) rest
    else if x == '}' && !isEscaped rev then findDelimEndLoop delim (x :: rev) (depth - 1) rest
    else if startsWith (x :: rest) delim && !isEscaped rev && depth == 0 then
      some (rev.length + delim.length)
    else findDelimEndLoop delim (x :: rev) depth rest

/-- tex_utils.py:405-426 `find_delimiter_end`; `none` stands for `-1`. -/
def findDelimiterEnd (content : Str) (startPos : Nat) (delim : Str) : Option Nat :=
  findDelimEndLoop delim (content.take startPos).reverse 0 (content.drop startPos)

/-- tex_utils.py:429-447 `extract_equation_content`. `none` stands for `("", 0)`. -/
def extractEquationContent (content delim : Str) : Option (Str × Nat) :=
  if !startsWith content delim then none
  else match findDelimiterEnd content delim.length delim with
    | none => none
    | some e => some (strip (slice content delim.length (e - delim.length)), e)

end L2J
