import Verif.Model.Content
import Verif.Model.Args
/-! Model of latex2json/parser/handlers/author.py. `parse` stands for `process_content_fn`, which is `LatexParser.parse` (it gives `None`
for `None`, tex_parser.py:487-488; its state is not followed). `\w` is the ASCII one. The patterns are hand-written scanners. -/
namespace L2J.Author
open Content (ciChar)

/-- A literal under `re.IGNORECASE` at the start: what follows it. -/
def ciDrop : Str → Str → Option Str
  | [], s => some s
  | c :: kw, x :: s => if ciChar c x then ciDrop kw s else none
  | _ :: _, [] => none

/-- `\s*{` at the start: where the brace is. -/
def brace (s : Str) : Option Nat :=
  if (s.dropWhile isSpace).head? = some '{' then some (s.takeWhile isSpace).length else none

/-- `(.*?)\]\s*{` at the start with DOTALL: where the brace is. -/
def closing : Str → Option Nat
  | [] => none
  | c :: s =>
    match (if c = ']' then brace s else none) with
    | some n => some (n + 1)
    | none => (closing s).map (· + 1)

/-- `(?:\s*\[(.*?)\])?\s*{` at the start: where the brace is. -/
def optBrace (s : Str) : Option Nat :=
  match s.dropWhile isSpace with
  | '[' :: r => (closing r).map (· + ((s.takeWhile isSpace).length + 1))
  | _ => brace s

/-- A command in any case, then `f`: where the brace is. -/
def cmdAt (kw : Str) (f : Str → Option Nat) (s : Str) : Option Nat :=
  match ciDrop kw s with
  | none => none
  | some r => (f r).map (· + kw.length)

/-- `\\curraddr(?:\{\}|\b)`, author.py:20: the end. -/
def curraddr (s : Str) : Option Nat :=
  if startsWith s "\\curraddr".toList then
    if startsWith (s.drop 9) "{}".toList then some 11
    else if ((s.drop 9).head?.map isWord).getD false then none else some 9
  else none

/-- `AND_PATTERN`, author.py:7, at the start. -/
def andAt (s : Str) : Bool :=
  match ciDrop "\\and".toList s with
  | none => false
  | some r => !(r.head?.map isWord).getD false

/-- `AND_PATTERN.split`, author.py:42; the first argument counts the characters of a separator still to be skipped. -/
def splitAnd : Nat → Str → List Str
  | _, [] => [[]]
  | k + 1, _ :: s => splitAnd k s
  | 0, c :: s =>
    if andAt (c :: s) then [] :: splitAnd 3 s
    else match splitAnd 0 s with
      | [] => [[c]]
      | p :: l => (c :: p) :: l

/-- `_parse_author_content`, author.py:39-53. -/
def authorParts (content : Str) : List Str := ((splitAnd 0 content).map strip).filter (· ≠ [])

/-- `_parse_author_tokens`, author.py:55-65. -/
def authorTokens {τ} (parse : Str → List τ) (content : Str) : List (List τ) := ((authorParts content).map parse).filter fun l => !l.isEmpty

/-- The token: `None`, one of type "author", one of type "footnote", or one of another type. -/
inductive Out (τ : Type) where
  | nothing
  | authors (l : List (List τ))
  | footnote (content : Option Str)
  | field (type : Str) (content : Option (List τ))
deriving DecidableEq

/-- The token of "email", "affiliation" and "address", author.py:95-103. -/
def fieldOut {τ} (parse : Str → List τ) (type s : Str) (i : Nat) : Out τ × Nat :=
  match extractNestedContent (s.drop i) '{' '}' with
  | none => (.field type none, i)
  | some (t, e) => (.field type (some (parse t)), i + e)

/-- `handle`, author.py:67-105; `none` is `None, 0`, an exception is an error. -/
def handle {τ} (parse : Str → List τ) (s : Str) : Option (Except Unit (Out τ × Nat)) :=
  match cmdAt "\\author".toList optBrace s with
  | some i => some (match extractNestedContent (s.drop i) '{' '}' with
    | none => .error ()
    | some (t, e) => .ok (.authors (authorTokens parse t), i + e))
  | none =>
  match cmdAt "\\email".toList brace s with
  | some i => some (.ok (fieldOut parse "email".toList s i))
  | none =>
  match (match cmdAt "\\affil".toList optBrace s with | some i => some i | none => cmdAt "\\affiliation".toList optBrace s) with
  | some i => some (.ok (fieldOut parse "affiliation".toList s i))
  | none =>
  match cmdAt "\\address".toList brace s with
  | some i => some (.ok (fieldOut parse "address".toList s i))
  | none =>
  match curraddr s with
  | some e => some (.ok (.nothing, e))
  | none =>
  match cmdAt "\\thanks".toList brace s with
  | some i => some (.ok (match extractNestedContent (s.drop i) '{' '}' with
    | none => (.footnote none, i)
    | some (t, e) => (.footnote (some t), i + e)))
  | none => none

end L2J.Author
