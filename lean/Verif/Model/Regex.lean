import Verif.Model.PyStr
/-
A model of the fragment of CPython's `re` used by latex2json: a backtracking matcher.  `Re.run r st`
lists the ways `r` can match at `st`, in the order the backtracking engine tries them, so the
engine's answer is the head of the list.  The position is a zipper, so look-behind is possible.

Simplification: an iteration of a repetition must consume at least one character (CPython also stops
repeating on empty iterations); no flags other than DOTALL (encoded in the character classes).
-/
namespace L2J

/-- Matcher state: text before the position (reversed), text after it, captured groups
(latest binding first). -/
structure MSt where
  rev : Str
  rest : Str
  groups : List (Nat × Str)
deriving Repr, DecidableEq

inductive Re where
  | eps
  | fail
  | chr (p : Char → Bool)
  | seq (a b : Re)
  | alt (a b : Re)
  /-- greedy `a*` -/
  | star (a : Re)
  /-- lazy `a*?` -/
  | lazyStar (a : Re)
  | group (n : Nat) (a : Re)
  /-- `(?=a)` -/
  | look (a : Re)
  /-- `(?!a)` -/
  | nlook (a : Re)
  /-- `(?<!c)` for a one-character class -/
  | nbehind (p : Char → Bool)
  /-- `$` without MULTILINE, restricted to the very end or just before a final newline -/
  | eos

/-- Greedy repetition: try one more iteration first. The fuel is the remaining length. -/
def iterGreedy (f : MSt → List MSt) : Nat → MSt → List MSt
  | 0, st => [st]
  | n + 1, st =>
    ((f st).filter fun st' => decide (st'.rest.length < st.rest.length)).flatMap (iterGreedy f n) ++ [st]

/-- Lazy repetition: try to stop first. -/
def iterLazy (f : MSt → List MSt) : Nat → MSt → List MSt
  | 0, st => [st]
  | n + 1, st =>
    st :: ((f st).filter fun st' => decide (st'.rest.length < st.rest.length)).flatMap (iterLazy f n)

/-- All matches of a regex at a position, in backtracking order. -/
def Re.run : Re → MSt → List MSt
  | .eps, st => [st]
  | .fail, _ => []
  | .chr p, st =>
    match st.rest with
    | [] => []
    | x :: rest => if p x then [{ st with rev := x :: st.rev, rest := rest }] else []
  | .seq a b, st => (a.run st).flatMap b.run
  | .alt a b, st => a.run st ++ b.run st
  | .star a, st => iterGreedy a.run st.rest.length st
  | .lazyStar a, st => iterLazy a.run st.rest.length st
  | .group n a, st =>
    (a.run st).map fun st' =>
      { st' with groups := (n, st.rest.take (st.rest.length - st'.rest.length)) :: st'.groups }
  | .look a, st => if (a.run st).isEmpty then [] else [st]
  | .nlook a, st => if (a.run st).isEmpty then [st] else []
  | .nbehind p, st =>
    match st.rev with
    | [] => [st]
    | x :: _ => if p x then [] else [st]
  | .eos, st => if st.rest = [] ∨ st.rest = ['\n'] then [st] else []

/-- `a+` (greedy). -/
def Re.plus (a : Re) : Re := .seq a (.star a)
/-- `a?` (greedy). -/
def Re.opt (a : Re) : Re := .alt a .eps
/-- A literal string. -/
def Re.lit : Str → Re
  | [] => .eps
  | c :: cs => .seq (.chr (· == c)) (Re.lit cs)

/-- A match: the zipper where it starts, its length and its groups. -/
structure Match where
  rev : Str
  rest : Str
  len : Nat
  groups : List (Nat × Str)
deriving Repr, DecidableEq

/-- `m.start()`. -/
def Match.start (m : Match) : Nat := m.rev.length
/-- `m.end()`. -/
def Match.stop (m : Match) : Nat := m.rev.length + m.len
/-- `m.group(0)`. -/
def Match.text (m : Match) : Str := m.rest.take m.len
/-- `m.group(n)`; `none` is Python's `None` (group did not participate). -/
def Match.group (m : Match) (n : Nat) : Option Str := (m.groups.find? (·.1 == n)).map (·.2)

/-- `pattern.match(text, pos)` at a zipper. -/
def Re.matchAt (r : Re) (rev rest : Str) : Option Match :=
  match r.run ⟨rev, rest, []⟩ with
  | [] => none
  | st :: _ => some ⟨rev, rest, rest.length - st.rest.length, st.groups⟩

/-- `pattern.search(text, pos)`: leftmost match at or after the zipper position. -/
def Re.searchFrom (r : Re) (rev : Str) : Str → Option Match
  | [] => r.matchAt rev []
  | x :: rest =>
    match r.matchAt rev (x :: rest) with
    | some m => some m
    | none => r.searchFrom (x :: rev) rest

/-- `pattern.search(text)`. -/
def Re.search (r : Re) (text : Str) : Option Match := r.searchFrom [] text

/-- `list(pattern.finditer(text))` for patterns that never match the empty string: `skip` is the
number of characters of the previous match still to be passed over. -/
def Re.findIter (r : Re) : Nat → Str → Str → List Match
  | _, _, [] => []
  | k + 1, rev, x :: rest => r.findIter k (x :: rev) rest
  | 0, rev, x :: rest =>
    match r.matchAt rev (x :: rest) with
    | some m => if 0 < m.len then m :: r.findIter (m.len - 1) (x :: rev) rest else r.findIter 0 (x :: rev) rest
    | none => r.findIter 0 (x :: rev) rest

/-- `pattern.sub(f, text)` for patterns that never match the empty string. -/
def Re.subAux (r : Re) (f : Match → Str) : Nat → Str → Str → Str
  | _, _, [] => []
  | k + 1, rev, x :: rest => r.subAux f k (x :: rev) rest
  | 0, rev, x :: rest =>
    match r.matchAt rev (x :: rest) with
    | some m =>
      if 0 < m.len then f m ++ r.subAux f (m.len - 1) (x :: rev) rest
      else x :: r.subAux f 0 (x :: rev) rest
    | none => x :: r.subAux f 0 (x :: rev) rest

/-- `pattern.sub(f, text)`. -/
def Re.sub (r : Re) (f : Match → Str) (text : Str) : Str := r.subAux f 0 [] text

/-- ASCII part of `\d` (non-ASCII decimal digits are outside the model). -/
def isDigit (c : Char) : Bool := '0' ≤ c && c ≤ '9'

/-- `int(s)` for a string of ASCII digits. -/
def digitsVal (s : Str) : Nat := s.foldl (fun n c => 10 * n + (c.toNat - 48)) 0

end L2J
