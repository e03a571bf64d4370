import Verif.Model.Regex
/-
Model of extract_else_elseif_fi and of the generic branch of IfElseBlockHandler.handle,
latex2json/parser/handlers/if_else_statements.py.
-/
namespace L2J

/-- What the code uses of a `re.Match` on the searched slice: `start()`, `end()`, `group(1)`. -/
structure Hit where
  start : Nat
  stop : Nat
  group : Option Str
deriving DecidableEq, Repr

/-- if_else_statements.py:83-89: the four delimiter patterns, as their `search` functions on a slice
`content[pos:]`. They are parameters of the Python function too (`start_delimiter` changes with every
`\newif`). -/
structure CondDelims where
  ifs : Str → Option Hit
  fi : Str → Option Hit
  els : Str → Option Hit
  elsif : Str → Option Hit

inductive CondKind | start | fi | els | elsif
deriving DecidableEq, Repr

/-- if_else_statements.py:105-113: the `valid_matches` list, in the order it is filled. -/
def validMatches (D : CondDelims) (level : Nat) (s : Str) : List (CondKind × Hit) :=
  ((D.ifs s).map (CondKind.start, ·)).toList ++ ((D.fi s).map (CondKind.fi, ·)).toList ++
  (if level = 1 then ((D.els s).map (CondKind.els, ·)).toList else []) ++
  (if level = 1 then ((D.elsif s).map (CondKind.elsif, ·)).toList else [])

/-- if_else_statements.py:118 `min(valid_matches, key=lambda x: x[0])`: the first minimal element. -/
def minMatch : List (CondKind × Hit) → Option (CondKind × Hit)
  | [] => none
  | x :: xs =>
    match minMatch xs with
    | none => some x
    | some y => if y.2.start < x.2.start then some y else some x

/-- The list object `current_buffer` refers to: `if_content`, `else_content` or a list of its own. -/
inductive CurBuf
  | inIf
  | inElse
  | other (buf : List Str)
deriving DecidableEq, Repr

/-- if_else_statements.py:93-96: the local variables holding text. -/
structure CondSt where
  ifBuf : List Str := []
  elseBuf : List Str := []
  cur : CurBuf := .inIf
  branches : List (Option Str × Str) := []
deriving DecidableEq, Repr

/-- The value of `current_buffer`. -/
def CondSt.buf (st : CondSt) : List Str :=
  match st.cur with
  | .inIf => st.ifBuf
  | .inElse => st.elseBuf
  | .other b => b

/-- `current_buffer.append(c)` (through the alias). -/
def CondSt.push (st : CondSt) (c : Str) : CondSt :=
  match st.cur with
  | .inIf => { st with ifBuf := st.ifBuf ++ [c] }
  | .inElse => { st with elseBuf := st.elseBuf ++ [c] }
  | .other b => { st with cur := .other (b ++ [c]) }

/-- `branches[-1] = (branches[-1][0], content)`; `none` when the list is empty (IndexError). -/
def setLast (l : List (Option Str × Str)) (content : Str) : Option (List (Option Str × Str)) :=
  match l.getLast? with
  | none => none
  | some b => some (l.dropLast ++ [(b.1, content)])

/-- if_else_statements.py:132-136, the `else` case (after the append). -/
def CondSt.onElse (st : CondSt) : CondSt :=
  { st with
    branches := (setLast st.branches (strip st.buf.flatten)).getD st.branches
    cur := .inElse }

/-- if_else_statements.py:137-153, the `elsif` case (after the append); `none` = IndexError. Note that line 140
compares the lists by value. -/
def CondSt.onElsif (st : CondSt) (group : Option Str) : Option CondSt :=
  let content := strip st.buf.flatten
  if st.buf = st.ifBuf then
    some { st with ifBuf := [content], branches := st.branches ++ [(group, [])], cur := .other [] }
  else
    match setLast st.branches content with
    | none => none
    | some bs => some { st with branches := bs ++ [(group, [])], cur := .other [] }

/-- Result of `extract_else_elseif_fi`. -/
inductive CondRes
  | ok (ifContent elseContent : Str) (branches : List (Option Str × Str)) (pos : Nat)
  | valueError
  | indexError
deriving DecidableEq, Repr

/-- if_else_statements.py:157-162. -/
def CondSt.finish (st : CondSt) (pos : Nat) : CondRes :=
  .ok (strip st.ifBuf.flatten) (strip st.elseBuf.flatten) st.branches pos

/-- if_else_statements.py:98-155, the `while pos < content_length and nesting_level > 0` loop. The fuel bounds the
number of iterations; it never runs out for patterns that do not match the empty string. -/
def condLoop (D : CondDelims) (t : Str) : Nat → Nat → Nat → CondSt → CondRes
  | 0, pos, _, st => st.finish pos
  | fuel + 1, pos, level, st =>
    if pos < t.length ∧ 0 < level then
      match minMatch (validMatches D level (t.drop pos)) with
      | none => .valueError
      | some (k, h) =>
        let st' := st.push (slice t pos (pos + (if level = 1 ∧ k ≠ .start then h.start else h.stop)))
        match k with
        | .start => condLoop D t fuel (pos + h.stop) (level + 1) st'
        | .fi => condLoop D t fuel (pos + h.stop) (level - 1) st'
        | .els => condLoop D t fuel (pos + h.stop) level st'.onElse
        | .elsif =>
          match st'.onElsif h.group with
          | none => .indexError
          | some st'' => condLoop D t fuel (pos + h.stop) level st''
    else st.finish pos

/-- if_else_statements.py:83-162 `extract_else_elseif_fi(content, ...)`. -/
def extractElseElseifFi (D : CondDelims) (content : Str) : CondRes :=
  condLoop D content (content.length + 1) 0 1 {}

/-- What `IfElseBlockHandler.handle` returns: `(None, 0)`, a token, or an uncaught exception. -/
inductive CondHandled
  | notHandled
  | token (condition ifContent elseContent : Str) (branches : List (Option Str × Str)) (pos : Nat)
  | raised
deriving DecidableEq, Repr

/-- if_else_statements.py:302-332, the end of `IfElseBlockHandler.handle` for an `\if...\fi` conditional whose opening
match ends at `startPos` and whose (space-free) condition text is `condition`: `\iffalse` swaps the branches,
`ValueError` is caught, nothing else is. -/
def handleCond (D : CondDelims) (content : Str) (startPos : Nat) (condition : Str) : CondHandled :=
  match extractElseElseifFi D (content.drop startPos) with
  | .valueError => .notHandled
  | .indexError => .raised
  | .ok i e bs p =>
    if condition.filter (fun c => c != '{' && c != '}') = "false".toList then
      .token condition e i bs (startPos + p)
    else .token condition i e bs (startPos + p)

/-- The `search` function of a regex, on a slice. -/
def Re.hit (r : Re) (s : Str) : Option Hit := (r.search s).map fun m => ⟨m.start, m.stop, m.group 1⟩

/-- ASCII part of `\w`. -/
def isWord (c : Char) : Bool :=
  ('a' ≤ c && c ≤ 'z') || ('A' ≤ c && c ≤ 'Z') || isDigit c || c == '_'

/-- `\b` after a word character. -/
def reWordEnd : Re := .nlook (.chr isWord)

/-- if_else_statements.py:42 `FI_PATTERN`. -/
def fiRe : Re := .seq (.lit "\\fi".toList) reWordEnd
/-- if_else_statements.py:38 `ELSE_PATTERN`. -/
def elseRe : Re := .seq (.lit "\\else".toList) reWordEnd

/-- if_else_statements.py:11 `char_or_command_pattern`. -/
def charOrCommandRe : Re :=
  .seq (.opt (.seq (.lit ['{']) (.star (.chr isSpace))))
    (.seq (.alt (.seq (.lit ['\\']) (.plus (.chr fun c => ('a' ≤ c && c ≤ 'z') || ('A' ≤ c && c ≤ 'Z') || c == '@')))
        (.chr fun c => !isSpace c))
      (.opt (.seq (.star (.chr isSpace)) (.lit ['}']))))

/-- if_else_statements.py:13-16 `default_if_pattern`, its group numbered `n`. -/
def defaultIfRe (n : Nat) : Re :=
  .seq (.star (.chr isSpace))
    (.seq (.group n (.alt (.seq charOrCommandRe (.seq (.star (.chr isSpace)) charOrCommandRe))
        (.seq (.chr (· != '\n')) (.lazyStar (.chr (· != '\n'))))))
      (.look (.alt (.lit ['\\']) (.alt (.chr isSpace) (.alt .eos (.lit ['\n']))))))

/-- if_else_statements.py:37 `IF_PATTERN`. -/
def ifRe : Re := .seq (.lit ['\\']) (.seq (.opt (.lit ['@'])) (.seq (.lit "if".toList) (defaultIfRe 1)))

/-- if_else_statements.py:39-41 `ELSIF_PATTERN`. The final `\b` of the `\or` alternative is
`(?<=\w)(?!\w)|(?<!\w)(?=\w)`; its second half is omitted (after the look-ahead the next character is a
backslash, a blank or the end). -/
def elsifRe : Re :=
  .alt (.seq (.lit "\\els".toList) (.seq (.opt (.lit ['e'])) (.seq (.lit "if".toList) (defaultIfRe 1))))
    (.seq (.lit "\\or".toList) (.seq (defaultIfRe 2) (.seq (.nbehind fun c => !isWord c) reWordEnd)))

/-- The default delimiters (before any `\newif`, and only the last of the `\if` patterns). -/
def defaultDelims : CondDelims := ⟨ifRe.hit, fiRe.hit, elseRe.hit, elsifRe.hit⟩

end L2J
