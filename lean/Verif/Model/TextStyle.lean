import Verif.Model.Args
import Verif.Model.IfElse
import Verif.Model.Roman
import Verif.Model.Dict
/-! Model of latex2json/parser/handlers/text_formatting.py. `parse` stands for `process_content_fn`, which is `LatexParser.parse`: a text to
a list of tokens. It is a function here (the parser's state is not followed). `\w` and `\d` are the ASCII ones, patterns are hand-written
scanners: none of them has a choice to take back. -/
namespace L2J.Style

/-- A token: a text, a token with a list of tokens, or anything else. No `styles` and an empty list of styles are the same here. -/
inductive PTok (α : Type) where
  | text (s : Str) (styles : List Str)
  | node (type : Str) (l : List (PTok α)) (styles : List Str)
  | other (a : α) (styles : List Str)

/-- `token.get("styles", [])`. -/
def PTok.styles {α} : PTok α → List Str
  | .text _ st | .node _ _ st | .other _ st => st

/-- `token["styles"] = st`. -/
def PTok.setStyles {α} (st : List Str) : PTok α → PTok α
  | .text s _ => .text s st
  | .node ty l _ => .node ty l st
  | .other a _ => .other a st

/-- `FRONTEND_STYLE_MAPPING`, text_formatting.py:19-50. -/
def mapping : List (Str × Option Str) :=
  [("textbf".toList, some "bold".toList), ("textit".toList, some "italic".toList), ("textsl".toList, some "italic".toList),
   ("textsc".toList, some "small-caps".toList), ("textsf".toList, some "sans-serif".toList), ("texttt".toList, some "monospace".toList),
   ("textrm".toList, some "normal".toList), ("textup".toList, some "normal".toList), ("emph".toList, some "italic".toList),
   ("texttiny".toList, some "xx-small".toList), ("textscriptsize".toList, some "x-small".toList),
   ("textfootnotesize".toList, some "small".toList), ("textsmall".toList, some "small".toList), ("textnormal".toList, some "medium".toList),
   ("textlarge".toList, some "large".toList), ("texthuge".toList, some "xx-large".toList), ("text".toList, none),
   ("textsuperscript".toList, some "superscript".toList), ("textsubscript".toList, some "subscript".toList),
   ("underline".toList, some "underline".toList), ("overline".toList, some "overline".toList),
   ("textoverline".toList, some "overline".toList), ("textstrikeout".toList, some "line-through".toList),
   ("sout".toList, some "line-through".toList), ("natexlab".toList, none), ("uppercase".toList, some "uppercase".toList),
   ("lowercase".toList, some "lowercase".toList)]

/-- `[a-zA-Z]`. -/
def isLetter (c : Char) : Bool := ('a' ≤ c && c ≤ 'z') || ('A' ≤ c && c ≤ 'Z')

/-- `\\(…)(?![a-zA-Z])(?:\\expandafter)?` at the start, text_formatting.py:52-55: the name and the text behind. A name of the table matches
exactly if it is the whole run of letters. -/
def styledName : Str → Option (Str × Str)
  | '\\' :: s =>
    let n := s.takeWhile isLetter
    match Dict.get? mapping n with
    | none => none
    | some _ =>
      let r := s.drop n.length
      some (n, if startsWith r "\\expandafter".toList then r.drop 12 else r)
  | _ => none

/-- What a handler returns as token: `None`, a token, or a list. -/
inductive Out (α : Type) where
  | none
  | one (t : PTok α)
  | many (l : List (PTok α))

/-- The result of `handle`, or an exception. -/
inductive Res (α : Type) where
  | raised
  | ok (out : Out α) (stop : Nat)

/-- `list(OrderedDict.fromkeys(l))`: each value at its first place. -/
def dedup : List Str → List Str
  | [] => []
  | x :: l => x :: (dedup l).filter (· ≠ x)

/-- The token `{"type": "text", "content": …}` with the parsed content and the style, text_formatting.py:136-163, and
`flatten_group_token`, tex_utils.py:376-384. -/
def applyStyle {α} (style : Option Str) (inner : List (PTok α)) : Out α :=
  match inner with
  | [t] => .one (t.setStyles (dedup (style.toList ++ t.styles)))
  | [] => .none
  | l => .many (match style with | some st => l.map fun t => t.setStyles (st :: t.styles) | none => l)

/-- `_handle_styled`, text_formatting.py:101-166; `s` is the whole text and `r` what is behind the name. -/
def handleStyled {α} (parse : Str → List (PTok α)) (s : Str) (name r : Str) : Res α :=
  let style := (Dict.get? mapping name).getD none
  let pos := s.length - r.length
  let ws := (r.takeWhile isSpace).length
  match r.dropWhile isSpace with
  | '{' :: r' =>
    match extractNestedContent ('{' :: r') '{' '}' with
    | none => .ok (applyStyle style (parse ['{'])) (pos + ws + 1)
    | some (t, e) => if strip t = [] then .ok .none (pos + ws + e) else .ok (applyStyle style (parse t)) (pos + ws + e)
  | [] => if r = [] then .ok (applyStyle style (parse [])) pos else .raised
  | c :: _ =>
    -- the group is all the rest of the text; a brace at its end is taken for the opening brace
    if r.getLast? = some '{' then .ok (applyStyle style (parse ['{'])) s.length
    else if c = '\\' then .ok (applyStyle style (parse [])) pos else .ok (applyStyle style (parse [c])) (pos + ws + 1)

/-- A command, blanks and `b` at the start: where `b` is. -/
def openAfter (kw : Str) (b : Char) (s : Str) : Option Nat :=
  if startsWith s kw then
    if ((s.drop kw.length).dropWhile isSpace).head? = some b then some (kw.length + ((s.drop kw.length).takeWhile isSpace).length) else none
  else none

/-- `n` times `\s*\{([^}]+)\}` at the start: the length. -/
def fields : Nat → Str → Option Nat
  | 0, _ => some 0
  | n + 1, s =>
    match s.dropWhile isSpace with
    | '{' :: r =>
      let t := r.takeWhile (· ≠ '}')
      if t = [] ∨ r.drop t.length = [] then none
      else (fields n (r.drop (t.length + 1))).map (· + ((s.takeWhile isSpace).length + t.length + 2))
    | _ => none

/-- The pattern "fonts", text_formatting.py:57-61: the end of the match. -/
def fonts (s : Str) : Option Nat :=
  if startsWith s "\\fontsize".toList ∧ (fields 2 (s.drop 9)).isSome then (fields 2 (s.drop 9)).map (· + 9)
  else if startsWith s "\\selectfont".toList ∧ ¬ ((s.drop 11).head?.map isWord).getD false then some 11
  else if startsWith s "\\usefont".toList then (fields 4 (s.drop 8)).map (· + 8)
  else none

/-- `(\[\w+\])?` at the start: the group and the length. -/
def wordOption : Str → Option Str × Nat
  | '[' :: r =>
    let w := r.takeWhile isWord
    if w ≠ [] ∧ (r.drop w.length).head? = some ']' then (some w, w.length + 2) else (none, 0)
  | _ => (none, 0)

/-- The pattern "color", text_formatting.py:69: the colour model and where the brace is. -/
def colorMatch (s : Str) : Option (Option Str × Nat) :=
  if startsWith s "\\textcolor".toList then
    let r := s.drop 10
    let ws := (r.takeWhile isSpace).length
    let o := wordOption (r.drop ws)
    let r2 := (r.drop ws).drop o.2
    if (r2.dropWhile isSpace).head? = some '{' then some (o.1, 10 + ws + o.2 + (r2.takeWhile isSpace).length) else none
  else none

/-- `normalize_text_token`, text_formatting.py:85-94, on a list. -/
def normalize {α} : List (PTok α) → PTok α
  | [.text s st] => .text s st
  | l => .node "group".toList l []

/-- The first of the patterns. -/
def firstOpen (b : Char) (s : Str) : List Str → Option Nat
  | [] => none
  | kw :: l => match openAfter kw b s with | some i => some i | none => firstOpen b s l

/-- `\\\\|\\newline` replaced by a blank, tex_utils.py:190; the first argument counts the characters of a match still to be skipped. -/
def breaks : Nat → Str → Str
  | _, [] => []
  | k + 1, _ :: s => breaks k s
  | 0, c :: s =>
    if startsWith (c :: s) "\\\\".toList then ' ' :: breaks 1 s
    else if startsWith (c :: s) "\\newline".toList then ' ' :: breaks 7 s
    else c :: breaks 0 s

/-- `\s+` replaced by a blank, tex_utils.py:196; the flag tells that a blank was just written. -/
def collapse : Bool → Str → Str
  | _, [] => []
  | b, c :: s => if isSpace c then (if b then collapse true s else ' ' :: collapse true s) else c :: collapse false s

/-- `strip_latex_newlines`, tex_utils.py:188-198. -/
def stripNewlines (s : Str) : Str := strip (collapse false ((breaks 0 s).map fun c => if c = '\n' then ' ' else c))

/-- The pattern "roman_numerals", text_formatting.py:72: the digits and the end. -/
def romanMatch (s : Str) : Option (Str × Nat) :=
  if startsWith s "\\romannumeral".toList then
    let r := s.drop 13
    let ws := (r.takeWhile isSpace).length
    let ds := (r.drop ws).takeWhile isDigit
    if ws = 0 ∨ ds = [] then none else some (ds, 13 + ws + ds.length)
  else none

/-- The pattern "columns", text_formatting.py:70: where its bracket is, or where it ends. -/
def columnsMatch (s : Str) : Option (Option Nat × Nat) :=
  if startsWith s "\\onecolumn".toList ∧ ¬ ((s.drop 10).head?.map isWord).getD false then some (none, 10)
  else if startsWith s "\\twocolumn".toList then
    let ws := ((s.drop 10).takeWhile isSpace).length
    if ((s.drop 10).drop ws).head? = some '[' then some (some (10 + ws), 11 + ws) else some (none, 10 + ws)
  else none

/-- `_handle_subfloat`, text_formatting.py:251-279. -/
def handleSubfloat {α} (parse : Str → List (PTok α)) (s : Str) (start : Nat) : Res α :=
  match extractNestedContent (s.drop start) '[' ']' with
  | none => .raised
  | some (caption, e) =>
    let total := start + e
    let cap : PTok α := .node "caption".toList [normalize (parse (strip caption))] []
    match extractNestedContent (s.drop total) '{' '}' with
    | some (b :: bs, e2) => .ok (.one (.node "group".toList [cap, normalize (parse (b :: bs))] [])) (total + e2)
    | _ => .ok (.one (.node "group".toList [cap] [])) total

/-- The style of a colour, text_formatting.py:222-227. -/
def colorStyle (model : Option Str) (c : Str) : Str :=
  "color=".toList ++ match model with | some m => '{' :: (m ++ ':' :: (c ++ ['}'])) | none => c

/-- `handle`, text_formatting.py:287-314. `flat` is `flatten_all_to_string`. -/
def handle {α} (parse : Str → List (PTok α)) (flat : List (PTok α) → Str) (s : Str) : Res α :=
  match styledName s with
  | some (n, r) => handleStyled parse s n r
  | none =>
  match openAfter "\\citetext".toList '{' s with
  | some i =>
    match seqBlocks (s.drop i) '{' '}' (some 1) with
    | ([b], e) => .ok (.many (parse b)) (i + e)
    | _ => .ok .none i
  | none =>
  match fonts s with
  | some e => .ok .none e
  | none =>
  match firstOpen '{' s ["\\frac".toList, "\\nicefrac".toList, "\\textfrac".toList] with
  | some i =>
    match seqBlocks (s.drop i) '{' '}' (some 2) with
    | ([a, b], e) => .ok (.one (.text (stripNewlines (flat (parse a)) ++ " / ".toList ++ stripNewlines (flat (parse b))) [])) (i + e)
    | _ => .ok .none i
  | none =>
  match openAfter "\\texorpdfstring".toList '{' s with
  | some i =>
    match seqBlocks (s.drop i) '{' '}' (some 2) with
    | ([_, b], e) => .ok (.one (normalize (parse b))) (i + e)
    | _ => .ok .none i
  | none =>
  match colorMatch s with
  | some (m, i) =>
    match seqBlocks (s.drop i) '{' '}' (some 2) with
    | ([c, b], e) =>
      let t := normalize (parse b)
      .ok (.one (t.setStyles (dedup (colorStyle m (strip c) :: t.styles)))) (i + e)
    | (_, e) => .ok (.one (normalize (parse []))) (i + e)
  | none =>
  match columnsMatch s with
  | some (some i, _) =>
    match extractNestedContent (s.drop i) '[' ']' with
    | some (b, e) => .ok (.one (normalize (parse b))) (i + e)
    | none => .ok .none i
  | some (none, e) => .ok .none e
  | none =>
  match openAfter "\\subfloat".toList '[' s with
  | some i => handleSubfloat parse s i
  | none =>
  match romanMatch s with
  | some (ds, e) => .ok (.one (.text (intToRoman (digitsVal ds)) [])) e
  | none => .ok .none 0

end L2J.Style
