import Verif.Model.Flatten
import Verif.Spec.Files
import Verif.Spec.Preproc
/-! What flattening a table is supposed to achieve. -/
namespace L2J.Spec
open Flat

/-- A list of tokens seen as stretches of unstyled text (possibly empty), each followed by another token, and a last
stretch; `w` is the text before. -/
def runs {β} (w : Str) : List (FTok β) → List (Str × FTok β) × Str
  | [] => ([], w)
  | ⟨some s, none, _⟩ :: ts => runs (w ++ s) ts
  | t :: ts => ((w, t) :: (runs [] ts).1, (runs [] ts).2)

/-- A stretch of text as a token; no token if it is empty. -/
def textTok {β} (bare : β) (s : Str) : List (FTok β) := if s = [] then [] else [⟨some s, none, bare⟩]

/-- The tokens those stretches stand for. -/
def unruns {β} (bare : β) (r : List (Str × FTok β) × Str) : List (FTok β) :=
  r.1.flatMap (fun e => textTok bare e.1 ++ [e.2]) ++ textTok bare r.2

/-- The placeholder of number `n`. -/
def placeholder (n : Nat) : Str := "`|REF_".toList ++ natStr n ++ "|`".toList

/-- A piece of text that could be confused with (a part of) a placeholder. -/
def Confusing (s : Str) : Prop := Contains s "|REF_".toList

end L2J.Spec
