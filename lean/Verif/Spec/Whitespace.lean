import Verif.Model.PyStr
import Verif.Spec.Files
/-! What whitespace normalisation is supposed to do, independently of how. -/
namespace L2J.Spec

/-- Space, tab or newline. -/
def Ws (c : Char) : Prop := c = ' ' ∨ c = '\t' ∨ c = '\n'

/-- The shape of a text: words (non-empty, free of space, tab and newline) each preceded by the gap before it. Only
the gap before the first word may be empty. -/
def WsPieces : List (Str × Str) → Prop
  | [] => True
  | (g, w) :: ps => (∀ c ∈ g, Ws c) ∧ (w ≠ [] ∧ ∀ c ∈ w, ¬ Ws c) ∧ (∀ p ∈ ps, p.1 ≠ []) ∧ WsPieces ps

/-- The text with the given pieces and trailing gap. -/
def wsText (ps : List (Str × Str)) (tail : Str) : Str := (ps.flatMap fun p => p.1 ++ p.2) ++ tail

/-- What a gap becomes: a newline if it contains a blank line, else a space (nothing if there is no gap). -/
def sepOf (g : Str) : Str := if g = [] then [] else if 2 ≤ g.count '\n' then ['\n'] else [' ']

/-- The normalised text, before trimming. -/
def normalOf (ps : List (Str × Str)) (tail : Str) : Str := (ps.flatMap fun p => sepOf p.1 ++ p.2) ++ sepOf tail

/-- No two neighbouring characters are both space, tab or newline. -/
def NoDoubleWs (s : Str) : Prop := ∀ a x y b, s = a ++ x :: y :: b → ¬ (Ws x ∧ Ws y)

end L2J.Spec
