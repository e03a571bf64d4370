import Verif.Spec.Delim
/-! Arguments written in brackets. -/
namespace L2J.Spec

/-- A text that can be written between `o` and `c`: its brackets match and it does not end in a backslash that would
escape the closing one. -/
def Wrappable (o c : Char) (a : Str) : Prop := Balanced a o c ∧ escapedAt a a.length = false

/-- Each argument between `o` and `c`, blanks before each of them. -/
def wrapAll (o c : Char) : List (Str × Str) → Str
  | [] => []
  | (ws, a) :: l => ws ++ o :: (a ++ c :: wrapAll o c l)

/-- The blanks are blanks and the arguments can be wrapped. -/
def WellWrapped (o c : Char) (l : List (Str × Str)) : Prop :=
  ∀ e ∈ l, (∀ x ∈ e.1, isSpace x = true) ∧ Wrappable o c e.2

end L2J.Spec
