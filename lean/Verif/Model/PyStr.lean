/-
Model of the pieces of CPython's `str` API the code relies on.
A Python `str` is a `List Char`.  (Lone surrogates are outside the model.)
-/
namespace L2J

/-- A Python string. -/
abbrev Str := List Char

/-- `str.isspace` on one character (CPython: Unicode White_Space or bidirectional WS/B/S).
Used in tex_utils.py:38, :88, :568 and by `str.strip`. -/
def isSpace (c : Char) : Bool :=
  let n := c.toNat
  (9 ≤ n && n ≤ 13) || (28 ≤ n && n ≤ 32) || n == 0x85 || n == 0xa0 || n == 0x1680 ||
  (0x2000 ≤ n && n ≤ 0x200a) || n == 0x2028 || n == 0x2029 || n == 0x202f || n == 0x205f ||
  n == 0x3000

/-- Characters at which `str.splitlines` breaks a line. Used in tex_utils.py:339. -/
def isLineBreak (c : Char) : Bool :=
  let n := c.toNat
  (10 ≤ n && n ≤ 13) || (28 ≤ n && n ≤ 30) || n == 0x85 || n == 0x2028 || n == 0x2029

/-- `str.lstrip()`. -/
def lstrip (s : Str) : Str := s.dropWhile isSpace

/-- `str.rstrip()`. -/
def rstrip (s : Str) : Str := (s.reverse.dropWhile isSpace).reverse

/-- `str.strip()`. -/
def strip (s : Str) : Str := rstrip (lstrip s)

/-- Python slice `s[a:b]` for non-negative `a`, `b`. -/
def slice (s : Str) (a b : Nat) : Str := (s.take b).drop a

/-- `sep.join(parts)`. -/
def joinWith (sep : Str) : List Str → Str
  | [] => []
  | [p] => p
  | p :: q :: ps => p ++ sep ++ joinWith sep (q :: ps)

/-- `s.startswith(p)`. -/
def startsWith (s p : Str) : Bool := p.isPrefixOf s

/-- `s.endswith(p)`. -/
def endsWith (s p : Str) : Bool := p.isSuffixOf s

/-- Worker for `str.splitlines`: `acc` is the current line, reversed. `\r\n` is one break; a
final line is produced only if it is non-empty (no trailing empty line). -/
def splitLinesAux (acc : Str) : Str → List Str
  | [] => if acc.isEmpty then [] else [acc.reverse]
  | '\r' :: '\n' :: rest => acc.reverse :: splitLinesAux [] rest
  | c :: rest =>
    if isLineBreak c then acc.reverse :: splitLinesAux [] rest
    else splitLinesAux (c :: acc) rest

/-- `str.splitlines()`. -/
def splitLines (s : Str) : List Str := splitLinesAux [] s

/-- `str.find(sub)` from the current position: offset of the first occurrence of `sub`. -/
def findSub (sub : Str) : Str → Option Nat
  | [] => if sub.isEmpty then some 0 else none
  | c :: cs => if sub.isPrefixOf (c :: cs) then some 0 else (findSub sub cs).map (· + 1)

/-- Worker for `str.replace` with a non-empty pattern: `skip` characters of the current match
are still to be dropped. -/
def replaceAux (old new : Str) : Nat → Str → Str
  | _, [] => []
  | k + 1, _ :: cs => replaceAux old new k cs
  | 0, c :: cs =>
    if old.isPrefixOf (c :: cs) then new ++ replaceAux old new (old.length - 1) cs
    else c :: replaceAux old new 0 cs

/-- `s.replace(old, new)` for non-empty `old` (all uses in the repository). -/
def replace (s old new : Str) : Str := replaceAux old new 0 s

end L2J
