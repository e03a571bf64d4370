import Verif.Model.SymbolTable
import Verif.Model.Commands
/-
Model of latex2json/latex_maps/latex_unicode_converter.py. `re.sub` over an alternation is modelled directly: at each position the alternatives are
tried in their order, and after a match the search goes on behind it (no alternative matches the empty text).
-/
namespace L2J.Sym
open Cmds (isLetter)

/-- `_init_latex2unicode`, latex_unicode_converter.py:21-26. -/
def table : List (Str × Str) := entries.map fun e => (e.1, e.2.map Char.ofNat)

/-- Does the text contain it? -/
def holds (sub : Str) : Str → Bool
  | [] => sub.isEmpty
  | c :: s => sub.isPrefixOf (c :: s) || holds sub s

/-- The category of a command, as the number of its pass, latex_unicode_converter.py:30-58: 1 `\ensuremath`, 2 `\text`, 3 `\math`, 4 fonts, 5 others. -/
def passOf (k : Str) : Nat :=
  if "\\ensuremath".toList.isPrefixOf k then 1
  else if "\\text".toList.isPrefixOf k then 2
  else if "\\math".toList.isPrefixOf k then 3
  else if holds "font".toList k then 4
  else 5

/-- latex_unicode_converter.py:45-46: the last character is a letter (the keys are ASCII) or `@`. -/
def wordLike (k : Str) : Bool :=
  match k.getLast? with
  | some c => isLetter c || c == '@'
  | none => false

/-- The pattern of one command, latex_unicode_converter.py:44-46, at the beginning of a text: the length of the match. -/
def matchKey (k s : Str) : Option Nat :=
  if k.isPrefixOf s then
    if wordLike k then
      let r := s.drop k.length
      if "{}".toList.isPrefixOf r then some (k.length + 2)
      else if (r.head?.map isLetter).getD false then none
      else some k.length
    else some k.length
  else none

/-- The first alternative that matches. -/
def matchAny : List Str → Str → Option Nat
  | [], _ => none
  | k :: l, s =>
    match matchKey k s with
    | some n => some n
    | none => matchAny l s

/-- The commands of one category, latex_unicode_converter.py:39-41, 47-56. -/
def keysOf (t : List (Str × Str)) (p : Nat) : List Str := (t.map (·.1)).filter fun k => (k.head? == some '\\' || k.head? == some '{') && passOf k == p

/-- `dict.get`. -/
def lookup (t : List (Str × Str)) (k : Str) : Option Str := (t.find? (·.1 == k)).map (·.2)

/-- `handle_match` for commands, latex_unicode_converter.py:77, 84-87. -/
def symbolOf (t : List (Str × Str)) (m : Str) : Str :=
  let c := strip m
  let c := if endsWith c "{}".toList then strip (c.take (c.length - 2)) else c
  (lookup t c).getD c

def isHex (c : Char) : Bool := c.isDigit || ('a' ≤ c && c ≤ 'f') || ('A' ≤ c && c ≤ 'F')
def hexDigit (c : Char) : Nat := if c.isDigit then c.toNat - 48 else if 'a' ≤ c then c.toNat - 87 else c.toNat - 55
/-- `int(_, 16)`. -/
def hexValue (s : Str) : Nat := s.foldl (fun n c => 16 * n + hexDigit c) 0

/-- UNICODE_PATTERN, latex_unicode_converter.py:6, at the beginning of a text: the digits. -/
def escapeDigits (s : Str) : Option Str :=
  match s with
  | '\\' :: 'u' :: r =>
    let d := (r.take 6).takeWhile isHex
    if 4 ≤ d.length then some d else none
  | _ => none

/-- `handle_match` for escapes, latex_unicode_converter.py:79-83. Simplification: a surrogate, which `chr` gives as it is, stays as written. -/
def escape (s : Str) : Option (Nat × Str) :=
  (escapeDigits s).map fun d => (d.length + 2, if (hexValue d).isValidChar then [Char.ofNat (hexValue d)] else '\\' :: 'u' :: d)

/-- `pattern.sub`: `f` gives the length of the match at the beginning of a text, and its replacement; the number is that of the characters of the last match still to be left out. -/
def sub (f : Str → Option (Nat × Str)) : Nat → Str → Str
  | _, [] => []
  | n + 1, _ :: s => sub f n s
  | 0, c :: s =>
    match f (c :: s) with
    | none => c :: sub f 0 s
    | some (n, r) => r ++ sub f (n - 1) s

/-- One category. If it has no commands there is no pattern (lines 60-63), and none is found. -/
def symbol (t : List (Str × Str)) (p : Nat) (s : Str) : Option (Nat × Str) := (matchAny (keysOf t p) s).map fun n => (n, symbolOf t (s.take n))

/-- `convert`, latex_unicode_converter.py:72-93, for a table; that of the package is `table`. -/
def convert (t : List (Str × Str)) (text : Str) : Str :=
  sub (symbol t 5) 0 (sub (symbol t 4) 0 (sub (symbol t 3) 0 (sub (symbol t 2) 0 (sub (symbol t 1) 0 (sub escape 0 text)))))

end L2J.Sym
