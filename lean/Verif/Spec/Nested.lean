import Verif.Model.PyStr
namespace L2J.Spec

/-- Leftmost-search functions for the opening and closing pattern: position ↦ (start, end). -/
structure Finders where
  opener : Nat → Option (Nat × Nat)
  closer : Nat → Option (Nat × Nat)

/-- The next event at or after `p` is a closing match `(a, b)`: it starts before any opening one. -/
def Finders.NextClose (F : Finders) (p a b : Nat) : Prop :=
  F.closer p = some (a, b) ∧ ∀ a' b', F.opener p = some (a', b') → a < a'

/-- The next event at or after `p` is an opening match ending at `b`: it does not start after the
next closing one. -/
def Finders.NextOpen (F : Finders) (p a b : Nat) : Prop :=
  F.opener p = some (a, b) ∧ ∀ a' b', F.closer p = some (a', b') → a ≤ a'

/-- Walking through the events from position `p` at depth `d`, the depth first reaches zero at the
closing match `(a, b)`. -/
inductive Finders.Closes (F : Finders) : Nat → Nat → Nat → Nat → Prop
  | last (p a b) : F.NextClose p a b → F.Closes p 1 a b
  | close (p d a b a' b') : 1 ≤ d → F.NextClose p a' b' → F.Closes b' d a b → F.Closes p (d + 1) a b
  | opens (p d a b a' b') : 1 ≤ d → F.NextOpen p a' b' → F.Closes b' (d + 1) a b → F.Closes p d a b

/-- A literal environment delimiter: `\begin` or `\end` (`kw`), whitespace, `{name}`. -/
def IsDelim (kw name t : Str) : Prop :=
  ∃ ws, (∀ x ∈ ws, isSpace x = true) ∧ t = kw ++ ws ++ '{' :: (name ++ ['}'])

/-- `t` contains no delimiter `kw{name}`. -/
def NoDelim (kw name t : Str) : Prop := ∀ u d v, t = u ++ d ++ v → ¬ IsDelim kw name d

/-- Well-nested environment bodies for environment `name`. -/
inductive EnvBody (name : Str) : Str → Prop
  | plain (t) : NoDelim "\\begin".toList name t → NoDelim "\\end".toList name t → EnvBody name t
  | env (t b body e rest) : NoDelim "\\begin".toList name t → NoDelim "\\end".toList name t →
      IsDelim "\\begin".toList name b → EnvBody name body → IsDelim "\\end".toList name e →
      EnvBody name rest → EnvBody name (t ++ b ++ body ++ e ++ rest)

/-- Single left-to-right rewriting pass over the remaining text: unmatched text is copied, a match is
replaced by the handler's output, and the pass resumes on what the handler left unconsumed. -/
inductive OnePass {M : Type} (search : Str → Option M) (start : M → Nat) (f : Str → M → Str × Nat) :
    Str → Str → Prop
  | done (t) : search t = none → OnePass search start f t t
  | step (t m out) : search t = some m → OnePass search start f (t.drop (f t m).2) out →
      OnePass search start f t (t.take (start m) ++ (f t m).1 ++ out)

end L2J.Spec
