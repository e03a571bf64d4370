import Verif.Model.Legacy
import Verif.Spec.TextStyle
import Verif.Spec.Items
/-! What switches (`{\bf …}`) do. -/
namespace L2J.Spec

/-- The switches for fonts and the style of each. -/
def fontSwitches : List (String × String) :=
  [("bf", "bold"), ("bfseries", "bold"), ("bold", "bold"), ("boldmath", "bold"), ("bm", "bold"), ("mathversion{bold}", "bold"),
   ("it", "italic"), ("itshape", "italic"), ("sl", "italic"), ("slshape", "italic"), ("em", "italic"),
   ("sc", "small-caps"), ("scshape", "small-caps"), ("sf", "sans-serif"), ("sffamily", "sans-serif"), ("tt", "monospace"), ("ttfamily", "monospace"),
   ("rm", "normal"), ("rmfamily", "normal"), ("upshape", "normal"), ("mdseries", "normal"), ("normalfont", "normal"), ("textup", "normal"),
   ("textnormal", "normal"), ("textmd", "normal"), ("unboldmath", "normal"), ("mathversion{normal}", "normal")]

/-- The switches for sizes. -/
def sizeSwitches : List (String × String) :=
  [("tiny", "xx-small"), ("scriptsize", "x-small"), ("footnotesize", "small"), ("small", "small"), ("smaller", "small"),
   ("normalsize", "medium"), ("large", "large"), ("larger", "large"), ("Large", "large"), ("LARGE", "large"), ("huge", "xx-large"), ("Huge", "xx-large")]

/-- The switches of a kind. Colours have their own form. -/
def switchTable : Legacy.Kind → List (String × String)
  | .font => fontSwitches
  | .size => sizeSwitches
  | .color => []

/-- The command that takes the place of a switch. -/
def modernTable : List (String × String) :=
  [("bf", "textbf"), ("bfseries", "textbf"), ("bold", "textbf"), ("boldmath", "textbf"), ("bm", "textbf"), ("mathversion{bold}", "textbf"),
   ("it", "textit"), ("itshape", "textit"), ("sl", "textsl"), ("slshape", "textsl"), ("em", "emph"),
   ("sc", "textsc"), ("scshape", "textsc"), ("sf", "textsf"), ("sffamily", "textsf"), ("tt", "texttt"), ("ttfamily", "texttt"),
   ("rm", "textrm"), ("rmfamily", "textrm"), ("upshape", "textrm"), ("mdseries", "textrm"), ("normalfont", "textrm"), ("textup", "textrm"),
   ("textnormal", "textrm"), ("textmd", "textrm"), ("unboldmath", "textrm"), ("mathversion{normal}", "textrm"),
   ("tiny", "texttiny"), ("scriptsize", "textscriptsize"), ("footnotesize", "textfootnotesize"), ("small", "textsmall"), ("smaller", "textsmall"),
   ("normalsize", "textnormal"), ("large", "textlarge"), ("larger", "textlarge"), ("Large", "textlarge"), ("LARGE", "textlarge"), ("huge", "texthuge"), ("Huge", "texthuge")]

/-- No letter stands here. -/
def NoLetterAt (s : Str) : Prop := ∀ c ∈ s.head?, Style.isLetter c = false

/-- `\color`, perhaps with `[model]`, and an opening brace, or the word `\normalcolor`. -/
inductive ColorSwitch : Str → Prop
  | plain (ws r) : (∀ c ∈ ws, isSpace c = true) → ColorSwitch ("\\color".toList ++ (ws ++ '{' :: r))
  | model (ws m ws' r) : (∀ c ∈ ws, isSpace c = true) → (∀ c ∈ ws', isSpace c = true) → m ≠ [] → (∀ c ∈ m, isWord c = true) →
      ColorSwitch ("\\color".toList ++ (ws ++ '[' :: (m ++ ']' :: (ws' ++ '{' :: r))))
  | normal (r) : (∀ c ∈ r.head?, isWord c = false) → ColorSwitch ("\\normalcolor".toList ++ r)

/-- A switch of this kind stands at the start of a text. -/
inductive SwitchAt : Legacy.Kind → Str → Prop
  | name {k n style} (r) : (n, style) ∈ switchTable k → NoLetterAt r → SwitchAt k ('\\' :: (n.toList ++ r))
  | color {s} : ColorSwitch s → SwitchAt .color s

/-- A part of a text: a group in braces, or an environment. -/
inductive Part where
  | braces (body : Str)
  | block (b : Block)

def Part.render : Part → Str
  | .braces body => '{' :: (body ++ ['}'])
  | .block b => b.render

def Part.Ok : Part → Prop
  | .braces body => Wrappable '{' '}' body
  | .block b => b.Ok

/-- Pieces of text and parts, then text. -/
def pieces : List (Str × Part) → Str → Str
  | [], tail => tail
  | (t, p) :: l, tail => t ++ (p.render ++ pieces l tail)

/-- In the piece `t`, with `R` behind it, nothing begins that matters: no switch of the kind, no environment, no brace that is not escaped;
and the piece does not escape what follows it. -/
def QuietPiece (k : Legacy.Kind) (t R : Str) : Prop :=
  (∀ u v, t = u ++ v → v ≠ [] → ¬ SwitchAt k (v ++ R) ∧ ¬ "\\begin".toList <+: v ++ R ∧ ¬ "\\bgroup".toList <+: v ++ R) ∧
  (∀ u v, t = u ++ '{' :: v → u.getLast? = some '\\') ∧ t.getLast? ≠ some '\\'

/-- The pieces are quiet and the parts closed; `next` stands behind all of it. -/
def PiecesOk (k : Legacy.Kind) (next : Str) : List (Str × Part) → Str → Prop
  | [], tail => QuietPiece k tail next
  | (t, p) :: l, tail => QuietPiece k t (p.render ++ (pieces l tail ++ next)) ∧ p.Ok ∧ (∀ b, p = .block b → MayFollow noWord (pieces l tail ++ next)) ∧ PiecesOk k next l tail

/-- The text ends with a switch, but for blanks. -/
def EndsWithSwitch (t : Str) : Prop := ∃ k n style, (n, style) ∈ switchTable k ∧ '\\' :: n.toList <:+ rstrip t

end L2J.Spec
