import Verif.Model.Content
import Verif.Spec.Wrapped
/-! What a heading command says, from the LaTeX side: independent of the patterns of the code. -/
namespace L2J.Spec

/-- The heading commands; the number is that of the `sub`s. -/
inductive Heading
  | part
  | chapter
  | «section» (subs : Nat)
  | paragraph (subs : Nat)
deriving DecidableEq, Repr

/-- `sub` a number of times. -/
def subText : Nat → Str
  | 0 => []
  | n + 1 => "sub".toList ++ subText n

/-- The name of the command. -/
def Heading.word : Heading → Str
  | .part => "part".toList
  | .chapter => "chapter".toList
  | .section n => subText n ++ "section".toList
  | .paragraph n => subText n ++ "paragraph".toList

/-- The depth: parts 0, chapters and sections 1, one more for each `sub`; paragraphs are counted from 1 by themselves. -/
def Heading.level : Heading → Nat
  | .part => 0
  | .chapter => 1
  | .section n => n + 1
  | .paragraph n => n + 1

/-- The token of a heading: paragraphs have their own type and carry no `numbered`. -/
def Heading.token (star : Bool) (title : Str) : Heading → Content.CTok
  | .paragraph n =>
    { type := "paragraph".toList, content := .absent, title := some title, level := some (n + 1) }
  | h =>
    { type := "section".toList, content := .absent, title := some title, level := some h.level, numbered := some !star }

instance (t : Str) (o c : Char) : Decidable (Balanced t o c) :=
  decidable_of_iff ((∀ j, j < t.length + 1 → 0 ≤ level t o c j) ∧ level t o c t.length = 0)
    ⟨fun h => ⟨fun j hj => h.1 j (by omega), h.2⟩, fun h => ⟨fun j hj => h.1 j (by omega), h.2⟩⟩

instance (o c : Char) (t : Str) : Decidable (Wrappable o c t) := by unfold Wrappable; infer_instance

end L2J.Spec
