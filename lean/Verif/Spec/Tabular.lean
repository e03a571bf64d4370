import Verif.Spec.Delim
/-! What splitting a table at a separator means. -/
namespace L2J.Spec

/-- Brace depth of the first `i` characters when every brace counts, escaped or not. -/
def rawLevel (t : Str) : Nat → Int
  | 0 => 0
  | i + 1 => rawLevel t i + (if t[i]? = some '{' then 1 else if t[i]? = some '}' then -1 else 0)

/-- A place where the table is to be cut: an unescaped occurrence of the separator outside braces. -/
def CutAt (t d : Str) (i : Nat) : Prop :=
  d <+: t.drop i ∧ escapedAt t i = false ∧ level t '{' '}' i = 0

/-- The same, but escaped braces count as braces. -/
def RawCutAt (t d : Str) (i : Nat) : Prop :=
  d <+: t.drop i ∧ escapedAt t i = false ∧ rawLevel t i = 0

/-- `pieces` is the text from `start` on, cut at every non-overlapping occurrence of a cut of width `w`, the
leftmost ones first. -/
inductive Pieces (t : Str) (cut : Nat → Prop) (w : Nat) : Nat → List Str → Prop
  | last (start) : start ≤ t.length → (∀ i, start ≤ i → i < t.length → ¬ cut i) →
      Pieces t cut w start [t.drop start]
  | cut (start i ps) : start ≤ i → i + w ≤ t.length → cut i → (∀ j, start ≤ j → j < i → ¬ cut j) →
      Pieces t cut w (i + w) ps → Pieces t cut w start (slice t start i :: ps)

/-- No brace of the text is escaped. -/
def NoEscapedBrace (t : Str) : Prop :=
  ∀ i, t[i]? = some '{' ∨ t[i]? = some '}' → escapedAt t i = false

end L2J.Spec
