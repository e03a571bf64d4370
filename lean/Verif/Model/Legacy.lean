import Verif.Model.EnvToken
import Verif.Model.TextStyle
/-! Model of latex2json/parser/handlers/legacy_formatting.py. `\w` is the ASCII one. The patterns are hand-written scanners. -/
namespace L2J.Legacy

/-- `LEGACY_FONT_MAPPING`, legacy_formatting.py:14-50. -/
def fontMap : Dict Str :=
  [("tt".toList, "texttt".toList), ("bf".toList, "textbf".toList), ("it".toList, "textit".toList), ("sl".toList, "textsl".toList),
   ("sc".toList, "textsc".toList), ("sf".toList, "textsf".toList), ("rm".toList, "textrm".toList), ("em".toList, "emph".toList),
   ("bold".toList, "textbf".toList), ("rmfamily".toList, "textrm".toList), ("sffamily".toList, "textsf".toList),
   ("ttfamily".toList, "texttt".toList), ("itshape".toList, "textit".toList), ("scshape".toList, "textsc".toList),
   ("upshape".toList, "textrm".toList), ("slshape".toList, "textsl".toList), ("bfseries".toList, "textbf".toList),
   ("mdseries".toList, "textrm".toList), ("normalfont".toList, "textrm".toList), ("textup".toList, "textrm".toList),
   ("textnormal".toList, "textrm".toList), ("textmd".toList, "textrm".toList), ("unboldmath".toList, "textrm".toList),
   ("boldmath".toList, "textbf".toList), ("bm".toList, "textbf".toList), ("mathversion{bold}".toList, "textbf".toList),
   ("mathversion{normal}".toList, "textrm".toList)]

/-- `LEGACY_SIZE_MAPPING`, legacy_formatting.py:53-69. -/
def sizeMap : Dict Str :=
  [("tiny".toList, "texttiny".toList), ("scriptsize".toList, "textscriptsize".toList), ("footnotesize".toList, "textfootnotesize".toList),
   ("small".toList, "textsmall".toList), ("normalsize".toList, "textnormal".toList), ("large".toList, "textlarge".toList),
   ("Large".toList, "textlarge".toList), ("LARGE".toList, "textlarge".toList), ("huge".toList, "texthuge".toList),
   ("Huge".toList, "texthuge".toList), ("smaller".toList, "textsmall".toList), ("larger".toList, "textlarge".toList)]

/-- The keys of `PATTERNS`, legacy_formatting.py:83-87. -/
inductive Kind where
  | font
  | size
  | color
deriving DecidableEq

/-- A match of one of the patterns: the first group and the length. -/
structure Hit where
  cmd : Option Str
  len : Nat
deriving DecidableEq

/-- `(?![a-zA-Z])`. -/
def noLetter (s : Str) : Bool := !(s.head?.map Style.isLetter).getD false

/-- `\\(…)(?![a-zA-Z])\s*\{?` at the start, legacy_formatting.py:73-79: the first name that fits; what follows always matches. -/
def nameMatch (names : Dict Str) : Str → Option Hit
  | '\\' :: s =>
    match names.find? fun e => startsWith s e.1 && noLetter (s.drop e.1.length) with
    | none => none
    | some (n, _) =>
      let r := s.drop n.length
      let ws := (r.takeWhile isSpace).length
      some ⟨some n, 1 + n.length + ws + (if (r.drop ws).head? = some '{' then 1 else 0)⟩
  | _ => none

/-- `\\(?:color\s*(\[\w+\])?\s*\{|normalcolor\b)` at the start, legacy_formatting.py:81. The group is given without its brackets. -/
def colorMatch (s : Str) : Option Hit :=
  if startsWith s "\\color".toList then
    let r := s.drop 6
    let ws := (r.takeWhile isSpace).length
    let o := Style.wordOption (r.drop ws)
    let r2 := (r.drop ws).drop o.2
    if (r2.dropWhile isSpace).head? = some '{' then some ⟨o.1, 6 + ws + o.2 + (r2.takeWhile isSpace).length + 1⟩ else none
  else if startsWith s "\\normalcolor".toList ∧ ¬ ((s.drop 12).head?.map isWord).getD false then some ⟨none, 12⟩
  else none

/-- `pattern.match`. -/
def Kind.match : Kind → Str → Option Hit
  | .font, s => nameMatch fontMap s
  | .size, s => nameMatch sizeMap s
  | .color, s => colorMatch s

/-- `re.search(pattern.pattern, s)` finds something. -/
def occurs (k : Kind) : Str → Bool
  | [] => false
  | c :: s => (k.match (c :: s)).isSome || occurs k s

/-- `pattern_or_open_brace.search(s)`, legacy_formatting.py:160-162: where the pattern, or a brace that is not escaped, is. `prev` is the
character before, if there is one in the text searched. -/
def findStop (k : Kind) (prev : Option Char) : Str → Option Nat
  | [] => none
  | c :: s =>
    if (k.match (c :: s)).isSome || (c = '{' && prev ≠ some '\\') then some 0 else (findStop k (some c) s).map (· + 1)

/-- `find_pattern_while_skipping_nested_envs` with that pattern, environment.py:136-180. `last` is `end_pos`; `none` is -1. -/
def skipTo (k : Kind) (content : Str) : Nat → Nat → Option Nat → Except Unit (Option Nat)
  | 0, _, last => .ok last
  | fuel + 1, start, last =>
    match findStop k none (content.drop start) with
    | none => .ok (last.map fun _ => content.length)
    | some next =>
      match EnvT.search (content.drop start) with
      | none => .ok (some (start + next))
      | some env =>
        if next < env then .ok (some (start + next))
        else
          match EnvT.tryHandle (content.drop (start + env)) with
          | .error e => .error e
          | .ok none => .ok last
          | .ok (some len) => skipTo k content fuel (start + env + len) (some (start + env + len))

/-- The loop, legacy_formatting.py:165-186: where the text for the style ends. -/
def scope (k : Kind) (content : Str) : Nat → Nat → Except Unit Nat
  | 0, _ => .ok content.length
  | fuel + 1, pos =>
    if content.length ≤ pos then .ok content.length
    else
      match skipTo k content (content.length + 1) pos none with
      | .error e => .error e
      | .ok none => .ok content.length
      | .ok (some out) =>
        if out = content.length then .ok content.length
        else if (content.drop out).head? = some '{' then
          scope k content fuel (out + (match extractNestedContent (content.drop out) '{' '}' with | some (_, e) => e | none => 1))
        else .ok out

/-- The names at the end of the text, legacy_formatting.py:195-207: the text without them, and the names in the order they are found. -/
def trailing : List Str → Str → List Str → Str × List Str
  | [], t, acc => (t, acc)
  | n :: l, t, acc =>
    if (('\\' :: n).isSuffixOf t) then trailing l (rstrip (t.take (t.length - (n.length + 1)))) (acc ++ ['\\' :: n]) else trailing l t acc

/-- All names, in the order of `LEGACY_FORMAT_MAPPING`, legacy_formatting.py:90. -/
def allNames : List Str := (fontMap ++ sizeMap).map (·.1)

/-- `"\\%s{%s}"`. -/
def wrap (cmd body : Str) : Str := '\\' :: (cmd ++ '{' :: (body ++ ['}']))

/-- `" ".join`. -/
def joinSp : List Str → Str
  | [] => []
  | [a] => a
  | a :: l => a ++ ' ' :: joinSp l

/-- The text returned, legacy_formatting.py:190-217. -/
def format (modern body : Str) : Str :=
  if rstrip body = [] then wrap modern body
  else
    let t := trailing allNames (rstrip body) []
    if t.2 = [] then wrap modern body else wrap modern t.1 ++ ' ' :: joinSp t.2.reverse

/-- `re.match(r"\\" + command, s)`, legacy_formatting.py:221: the name of a font or a size is itself; a colour model, in its brackets, is
a set of characters. -/
def offSwitch (k : Kind) (cmd s : Str) : Bool :=
  match k with
  | .color => match s with
    | '\\' :: c :: _ => cmd.contains c
    | _ => false
  | _ => startsWith s ('\\' :: cmd)

/-- How much `total_pos` grows by, legacy_formatting.py:221-222. -/
def offLen (k : Kind) (cmd : Option Str) (s : Str) : Nat :=
  match cmd with
  | none => 0
  | some n => if offSwitch k n s then (match k with | .color => n.length + 3 | _ => n.length + 1) else 0

/-- The text up to the end of the group it stands in, legacy_formatting.py:143-150. -/
def upToClose (next : Str) : Str :=
  match extractNestedContent ('{' :: next) '{' '}' with
  | some (_ :: _, e) => next.take (e - 2)
  | _ => next

/-- The switch without braces, legacy_formatting.py:134-224. -/
def handleSwitch (s : Str) (k : Kind) (cmd : Option Str) (modern : Str) (nextPos : Nat) : Except Unit (Str × Nat) :=
  let next := upToClose (s.drop nextPos)
  match (if occurs k next then scope k next (next.length + 1) 0 else .ok next.length) with
  | .error e => .error e
  | .ok stop =>
    let total := nextPos + stop
    .ok (format modern (next.take stop), total + offLen k cmd (s.drop total))

/-- The case of a match, legacy_formatting.py:105-224. An exception is an error. -/
def handleHit (s : Str) (k : Kind) (h : Hit) : Except Unit (Str × Nat) :=
  match k with
  | .color =>
    if startsWith s "\\normalcolor".toList then .ok ([], h.len)
    else
      match extractNestedContent ('{' :: s.drop h.len) '{' '}' with
      | none => .error ()
      | some (t, e) =>
        let model : Str := match h.cmd with | some m => '[' :: (m ++ [']']) | none => []
        handleSwitch s k h.cmd ("textcolor".toList ++ (model ++ '{' :: (t ++ ['}']))) (h.len + (e - 1))
  | _ =>
    let n := h.cmd.getD []
    let modern := (Dict.get? (fontMap ++ sizeMap) n).getD n
    if (s.take h.len).getLast? = some '{' then
      match extractNestedContent (s.drop (h.len - 1)) '{' '}' with
      | none => .error ()
      | some (t, e) => .ok (wrap modern (strip t), h.len - 1 + e)
    else handleSwitch s k h.cmd modern h.len

/-- `handle`, legacy_formatting.py:97-226; `none`: nothing matches. -/
def handle (s : Str) : Option (Except Unit (Str × Nat)) :=
  match Kind.font.match s with
  | some h => some (handleHit s .font h)
  | none =>
    match Kind.size.match s with
    | some h => some (handleHit s .size h)
    | none => (Kind.color.match s).map (handleHit s .color)

end L2J.Legacy
