import Verif.Model.Preprocess
/-! Model of `LatexPreamble.get_preamble`, latex2json/parser/tex_preamble.py:19-123. -/
namespace L2J.Pream
open Cmds Defn

/-- BEGIN_DOCUMENT_PATTERN, tex_preamble.py:19. -/
def beginRe : Re := .seq (.lit "\\begin".toList) (.seq spaces (.lit "{document}".toList))

/-- USE_PATTERN, tex_preamble.py:21-26. -/
def useRe : Re := .alt Pre.usepackageRe (.seq (.lit "\\use".toList) (.seq (.plus (.chr isLetter)) Pre.packTail))

/-- DELIM_PATTERN, tex_preamble.py:27: a backslash and a name. -/
def delimRe : Re := .seq (.lit ['\\']) (.seq (.look (.chr isNameChar)) (.plus (.chr isNameChar)))

/-- MAKEATLETTER_PATTERN and MAKEATOTHER_PATTERN, tex_preamble.py:30-31; `\b` after a letter: no word character (ASCII) follows. -/
def atLetterRe : Re := .seq (.lit "\\makeatletter".toList) (.nlook (.chr isWord))
def atOtherRe : Re := .seq (.lit "\\makeatother".toList) (.nlook (.chr isWord))

/-- `_preprocess_content`, tex_preamble.py:43-50: what stands before `\begin{document}`, without comments and stripped. -/
def before (content : Str) : Str :=
  let c := stripLatexComments content
  strip (match beginRe.search c with
    | none => c
    | some m => c.take m.start)

/-- tex_preamble.py:67-71: what stands behind the class declaration. -/
def afterClass (s : Str) : Str :=
  match Pre.documentclassRe.search s with
  | none => s
  | some m => s.drop m.stop

/-- tex_preamble.py:96-107: from `\makeatletter` to the end of the next `\makeatother`. -/
def block (s : Str) : Option Nat :=
  match atLetterRe.matchAt [] s with
  | none => none
  | some _ => (atOtherRe.search s).map (·.stop)

/-- One turn of the loop, tex_preamble.py:73-121, at the text `s` from the current position on: whether the text passed over is kept, and its length.
`none`: the loop is left (:85-86). -/
def turn (s : Str) : Except Unit (Option (Bool × Nat)) :=
  match delimRe.search s with
  | none => .ok none
  | some d =>
    if 0 < d.start then .ok (some (false, d.start)) else
    match useRe.matchAt [] s with
    | some u => .ok (some (true, u.len))
    | none =>
      match block s with
      | some e => .ok (some (true, e))
      | none =>
        if canHandle s then
          match handle s with
          | .error e => .error e
          | .ok (_, e) => if 0 < e then .ok (some (true, e.toNat)) else .ok (some (false, 1))
        else .ok (some (false, 1))

/-- The loop, tex_preamble.py:73-121; the text that is kept, each piece followed by a newline. The fuel is the length of the text plus one (see
`loop_fuel`). -/
def loop : Nat → Str → Except Unit Str
  | 0, _ => .ok []
  | n + 1, s =>
    if s = [] then .ok [] else
    match turn s with
    | .error e => .error e
    | .ok none => .ok []
    | .ok (some (k, e)) =>
      match loop n (s.drop e) with
      | .error x => .error x
      | .ok o => .ok (if k then s.take e ++ '\n' :: o else o)

/-- The text collected from a preamble. -/
def collect (s : Str) : Except Unit Str := loop (s.length + 1) s

/-- `get_preamble`, tex_preamble.py:52-123; an error is an exception. -/
def getPreamble (content : Str) : Except Unit Str := collect (afterClass (before content))

end L2J.Pream
