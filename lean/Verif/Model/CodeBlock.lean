import Verif.Model.PyStr
import Verif.Model.TextStyle
/-! Model of latex2json/parser/handlers/code_block.py. The patterns are hand-written scanners. -/
namespace L2J.Code

/-- The token: its content, its title and whether it has `"display": "inline"`; the type is "code". -/
structure Tok where
  content : Str
  title : Option Str
  inline : Bool
deriving DecidableEq

/-- `kw\s*\{name\}` at the start, code_block.py:8, :11: the length. -/
def delimAt (kw name s : Str) : Option Nat :=
  if startsWith s kw then
    match (s.drop kw.length).dropWhile isSpace with
    | '{' :: r => if startsWith r (name ++ ['}']) then some (kw.length + ((s.drop kw.length).takeWhile isSpace).length + name.length + 2) else none
    | _ => none
  else none

/-- `(.*?)\\end\s*\{name\}` with DOTALL: the group and the length. -/
def upTo (name : Str) : Str → Option (Str × Nat)
  | [] => none
  | c :: s =>
    match delimAt "\\end".toList name (c :: s) with
    | some e => some ([], e)
    | none => (upTo name s).map fun r => (c :: r.1, r.2 + 1)

/-- `\[([^\]]*)\]` at the start: the group and the length. -/
def bracket : Str → Option (Str × Nat)
  | '[' :: r =>
    let t := r.takeWhile (· ≠ ']')
    if r.drop t.length = [] then none else some (t, t.length + 2)
  | _ => none

/-- The pattern "verbatim_env" and its case, code_block.py:7-9, :35-39. -/
def verbatim (s : Str) : Option (Tok × Nat) :=
  match delimAt "\\begin".toList "verbatim".toList s with
  | none => none
  | some b => (upTo "verbatim".toList (s.drop b)).map fun r => (⟨strip r.1, none, false⟩, b + r.2)

/-- The pattern "lstlisting" and its case, code_block.py:10-13, :48-55: if the listing does not end behind the bracket, the bracket is given back. -/
def listing (s : Str) : Option (Tok × Nat) :=
  match delimAt "\\begin".toList "lstlisting".toList s with
  | none => none
  | some b =>
    let plain := (upTo "lstlisting".toList (s.drop b)).map fun r => (Tok.mk (strip r.1) none false, b + r.2)
    match bracket (s.drop b) with
    | none => plain
    | some (o, k) =>
      match upTo "lstlisting".toList ((s.drop b).drop k) with
      | none => plain
      | some r => some (⟨strip r.1, if o = [] then none else some (strip o), false⟩, b + k + r.2)

/-- `([^a-zA-Z])(.*?)\1` at the start (no DOTALL): the second group and the length. -/
def delimited : Str → Option (Str × Nat)
  | [] => none
  | c :: t =>
    if Style.isLetter c then none
    else
      let u := t.takeWhile fun x => x ≠ c && x ≠ '\n'
      if (t.drop u.length).head? = some c then some (u, u.length + 2) else none

/-- `\*?` before it: the star is given back if the rest does not match. -/
def starred : Str → Option (Str × Nat)
  | '*' :: r =>
    match delimited r with
    | some (t, n) => some (t, n + 1)
    | none => delimited ('*' :: r)
  | s => delimited s

/-- The pattern "verb_command" and its case, code_block.py:14-16, :41-46. -/
def verb (s : Str) : Option (Tok × Nat) :=
  if startsWith s "\\verb".toList then (starred (s.drop 5)).map fun r => (⟨strip r.1, none, true⟩, 5 + r.2) else none

/-- `handle`, code_block.py:25-57; `none` is `None, 0`. -/
def handle (s : Str) : Option (Tok × Nat) :=
  match verbatim s with
  | some r => some r
  | none => match listing s with
    | some r => some r
    | none => verb s

end L2J.Code
