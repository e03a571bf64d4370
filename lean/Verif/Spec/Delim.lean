import Verif.Model.PyStr
/-
Independent specification of LaTeX escaping and bracket depth, by position in the text.
-/
namespace L2J.Spec

/-- Position `i` is escaped: the character before it is a backslash that is not itself escaped. -/
def escapedAt (t : Str) : Nat → Bool
  | 0 => false
  | i + 1 => t[i]? == some '\\' && !escapedAt t i

/-- Position `i` holds an unescaped `d`. -/
def liveAt (t : Str) (d : Char) (i : Nat) : Bool := t[i]? == some d && !escapedAt t i

/-- Net bracket depth of the first `i` characters: +1 per live opener, -1 per live closer. -/
def level (t : Str) (o c : Char) : Nat → Int
  | 0 => 0
  | i + 1 => level t o c i + (if liveAt t o i then 1 else if liveAt t c i then -1 else 0)

/-- `t[s:e]` is a bracketed block: it starts with the opener at `s`, the depth stays above its
starting value until `e`, and comes back to it exactly at `e`. -/
structure IsBlock (t : Str) (o c : Char) (s e : Nat) : Prop where
  opener : liveAt t o s = true
  lt : s < e
  le : e ≤ t.length
  closed : level t o c e = level t o c s
  inside : ∀ j, s < j → j < e → level t o c s < level t o c j

/-- Every prefix has non-negative depth and the whole text has depth zero. -/
def Balanced (t : Str) (o c : Char) : Prop :=
  (∀ j, j ≤ t.length → 0 ≤ level t o c j) ∧ level t o c t.length = 0

/-- `n` leading characters are whitespace and the next one (if any) is not. -/
def LeadingSpace (t : Str) (n : Nat) : Prop :=
  (∀ j, j < n → ∃ x, t[j]? = some x ∧ isSpace x = true) ∧
  (∀ x, t[n]? = some x → isSpace x = false)

end L2J.Spec

namespace L2J.Spec

/-- Everything in `t[p:s]` is whitespace and position `s` is not whitespace. -/
def SpaceTo (t : Str) (p s : Nat) : Prop :=
  p ≤ s ∧ (∀ j, p ≤ j → j < s → ∃ x, t[j]? = some x ∧ isSpace x = true) ∧
  (∀ x, t[s]? = some x → isSpace x = false)

/-- `contents` are the insides of consecutive blocks of `t`, separated by whitespace only, the
first one starting at `p` (after whitespace); `q` is the end of the last one (`p` if none). -/
inductive Blocks (t : Str) (o c : Char) : Nat → List Str → Nat → Prop
  | nil (p) : Blocks t o c p [] p
  | cons (p s e q bs) : SpaceTo t p s → IsBlock t o c s e → Blocks t o c e bs q →
      Blocks t o c p (slice t (s + 1) (e - 1) :: bs) q

/-- There is no further block after position `q`. -/
def NoBlockFrom (t : Str) (o c : Char) (q : Nat) : Prop :=
  ¬ ∃ s e, SpaceTo t q s ∧ IsBlock t o c s e

/-- Brace depth `n` characters after `start`, where a closing brace at depth 0 is ignored. -/
def braceDepth (t : Str) (start : Nat) : Nat → Nat
  | 0 => 0
  | n + 1 =>
    if liveAt t '{' (start + n) then braceDepth t start n + 1
    else if liveAt t '}' (start + n) then braceDepth t start n - 1
    else braceDepth t start n

/-- A live, top-level occurrence of the delimiter string at position `i ≥ start`. -/
def TopDelimAt (t d : Str) (start i : Nat) : Prop :=
  start ≤ i ∧ d <+: t.drop i ∧ escapedAt t i = false ∧ braceDepth t start (i - start) = 0

/-- How `extract_delimited_args` is documented to read a signature: arguments are read left to
right, `p` is the end of the last argument read so far. -/
inductive ArgSeq (t : Str) : Str → Nat → List (Option Str) → Nat → Prop
  /-- signature exhausted -/
  | done (p) : ArgSeq t [] p [] p
  /-- next non-space character is no delimiter (or end of input) -/
  | stop (d pat p s) : SpaceTo t p s → t[s]? ≠ some '{' → t[s]? ≠ some '[' →
      ArgSeq t (d :: pat) p [] p
  /-- required argument missing -/
  | missing (pat p) : NoBlockFrom t '{' '}' p → ArgSeq t ('{' :: pat) p [] p
  | req (pat p s e rs q) : SpaceTo t p s → IsBlock t '{' '}' s e → ArgSeq t pat e rs q →
      ArgSeq t ('{' :: pat) p (some (slice t (s + 1) (e - 1)) :: rs) q
  | opt (pat p s e rs q) : SpaceTo t p s → IsBlock t '[' ']' s e → ArgSeq t pat e rs q →
      ArgSeq t ('[' :: pat) p (some (slice t (s + 1) (e - 1)) :: rs) q
  | absent (pat p s rs q) : SpaceTo t p s → (t[s]? = some '{' ∨ t[s]? = some '[') →
      NoBlockFrom t '[' ']' p → ArgSeq t pat p rs q →
      ArgSeq t ('[' :: pat) p (none :: rs) q

end L2J.Spec
