import Verif.Model.TextStyle
import Verif.Spec.Wrapped
/-! What styled text is. -/
namespace L2J.Spec
open Style (PTok)

/-- The commands for styled text and the style each stands for. -/
def styleTable : List (String × Option String) :=
  [("textbf", some "bold"), ("textit", some "italic"), ("emph", some "italic"), ("textsl", some "italic"), ("textsc", some "small-caps"),
   ("textsf", some "sans-serif"), ("texttt", some "monospace"), ("textrm", some "normal"), ("textup", some "normal"),
   ("texttiny", some "xx-small"), ("textscriptsize", some "x-small"), ("textfootnotesize", some "small"), ("textsmall", some "small"),
   ("textnormal", some "medium"), ("textlarge", some "large"), ("texthuge", some "xx-large"), ("textsuperscript", some "superscript"),
   ("textsubscript", some "subscript"), ("underline", some "underline"), ("overline", some "overline"), ("textoverline", some "overline"),
   ("textstrikeout", some "line-through"), ("sout", some "line-through"), ("uppercase", some "uppercase"), ("lowercase", some "lowercase"),
   ("text", none), ("natexlab", none)]

/-- `\name`, blanks and an argument in braces. -/
def command (name : String) (ws body : Str) : Str := '\\' :: (name.toList ++ (ws ++ '{' :: (body ++ ['}'])))

/-- `d` has the values of `l` without repetitions, in the order of their first places. -/
inductive Firsts : List Str → List Str → Prop
  | nil : Firsts [] []
  | again {l d x} : Firsts l d → x ∈ l → Firsts (l ++ [x]) d
  | new {l d x} : Firsts l d → x ∉ l → Firsts (l ++ [x]) (d ++ [x])

/-- The same token with other styles. -/
inductive SameBut {α} : List Str → PTok α → PTok α → Prop
  | text (s st st') : SameBut st' (.text s st) (.text s st')
  | node (ty l st st') : SameBut st' (.node ty l st) (.node ty l st')
  | other (a st st') : SameBut st' (.other a st) (.other a st')

/-- The style put in front of those of each token, one by one. -/
inductive EachStyled {α} (style : List Str) : List (PTok α) → List (PTok α) → Prop
  | nil : EachStyled style [] []
  | cons {t t' l l'} : SameBut (style ++ t.styles) t t' → EachStyled style l l' → EachStyled style (t :: l) (t' :: l')

/-- The outcome for the tokens of the argument: nothing if there are none; a single token has the style and then its own styles, each
once; several tokens have the style in front of their own. -/
inductive StyledAs {α} (style : List Str) : List (PTok α) → Style.Out α → Prop
  | none : StyledAs style [] .none
  | one {t t' d} : Firsts (style ++ t.styles) d → SameBut d t t' → StyledAs style [t] (.one t')
  | many {l l'} : 2 ≤ l.length → EachStyled style l l' → StyledAs style l (.many l')

/-- Blanks, line ends and commands for line ends. -/
inductive Gap : Str → Prop
  | nil : Gap []
  | blank {g} (c : Char) : isSpace c = true → Gap g → Gap (c :: g)
  | double {g} : Gap g → Gap ("\\\\".toList ++ g)
  | newline {g} : Gap g → Gap ("\\newline".toList ++ g)

/-- A word: no blank in it, nothing that ends a line, no backslash at its end. -/
def Unbroken (w : Str) : Prop :=
  w ≠ [] ∧ (∀ c ∈ w, isSpace c = false) ∧ w.getLast? ≠ some '\\' ∧ ∀ u v, w = u ++ v → ¬ "\\\\".toList <+: v ∧ ¬ "\\newline".toList <+: v

/-- Gaps and words; only the first gap may be empty. -/
def GapWords (l : List (Str × Str)) : Prop := (∀ e ∈ l, Gap e.1 ∧ Unbroken e.2) ∧ ∀ e ∈ l.tail, e.1 ≠ []

def gapText (l : List (Str × Str)) (last : Str) : Str := (l.flatMap fun e => e.1 ++ e.2) ++ last

/-- The words with single blanks between them. -/
def oneLine : List (Str × Str) → Str
  | [] => []
  | [e] => e.2
  | e :: e' :: l => e.2 ++ ' ' :: oneLine (e' :: l)

/-- Styled text in styled text: the commands with their styles and the blanks behind them, and the text. -/
def nestedText : List (String × Option String × Str) → Str → Str
  | [], w => w
  | (n, _, ws) :: l, w => command n ws (nestedText l w)

/-- All styles, the outermost first. -/
def nestedStyles : List (String × Option String × Str) → List Str
  | [] => []
  | (_, st, _) :: l => (st.map String.toList).toList ++ nestedStyles l

/-- `\name` with arguments in braces, blanks before each. -/
def commandN (name : String) (args : List (Str × Str)) : Str := '\\' :: (name.toList ++ wrapAll '{' '}' args)

/-- `[model]` or nothing. -/
def colorModel : Option Str → Str
  | some m => '[' :: (m ++ [']'])
  | none => []

/-- The style for a colour. -/
def colorName : Option Str → Str → Str
  | some m, c => "color={".toList ++ (m ++ ':' :: (c ++ ['}']))
  | none, c => "color=".toList ++ c

/-- The token for tokens in a place where one token is expected: a single text as it is, else a group. -/
inductive AsOne {α} : List (PTok α) → PTok α → Prop
  | text (s st) : AsOne [.text s st] (.text s st)
  | group (l) : (∀ s st, l ≠ [.text s st]) → AsOne l (.node "group".toList l [])

end L2J.Spec
