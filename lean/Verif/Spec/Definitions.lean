import Verif.Spec.Wrapped
import Verif.Props.C34
import Verif.Lemmas.NatStr
/-! How definitions are written. -/
namespace L2J.Spec

/-- White space, or nothing. -/
def Blank (ws : Str) : Prop := ∀ c ∈ ws, isSpace c = true

/-- A written `\newcommand`: `\word*<ws>{\name}[num][default]...<ws2>{body}`, or with `\name` instead of `{\name}`; there may be white space
before each bracket. -/
structure NewCommandText where
  word : String
  star : Bool
  ws : Str
  braced : Bool
  name : Str
  num : Option (Str × Nat)
  defaults : List (Str × Str)
  ws2 : Str
  body : Str

/-- The name as written. -/
def NewCommandText.target (c : NewCommandText) : Str := if c.braced then '{' :: '\\' :: (c.name ++ ['}']) else '\\' :: c.name

/-- The number of arguments as written. -/
def NewCommandText.numText (c : NewCommandText) : Str :=
  match c.num with
  | none => []
  | some (w, n) => w ++ '[' :: (natStr n ++ [']'])

/-- The text of the definition. -/
def NewCommandText.written (c : NewCommandText) : Str :=
  c.word.toList ++ ((if c.star then ['*'] else []) ++ (c.ws ++ (c.target ++ (c.numText ++ (wrapAll '[' ']' c.defaults ++ (c.ws2 ++ '{' :: (c.body ++ ['}'])))))))

/-- The words that define a command in this way. -/
def newCommandWords : List String := ["\\newcommand", "\\renewcommand", "\\providecommand", "\\DeclareRobustCommand", "\\DeclareMathOperator"]

/-- A definition as LaTeX allows it, with a name of letters; a default has no closing bracket and is on one line. -/
def NewCommandText.Ok (c : NewCommandText) : Prop :=
  c.word ∈ newCommandWords ∧ Blank c.ws ∧ NameWord c.name ∧ (∀ x ∈ c.num, Blank x.1) ∧ (c.num = none → c.defaults = []) ∧
  (∀ d ∈ c.defaults, Blank d.1 ∧ ']' ∉ d.2 ∧ '\n' ∉ d.2) ∧ Blank c.ws2 ∧ Wrappable '{' '}' c.body

end L2J.Spec
namespace L2J.Spec

/-- A name that is not itself taken for an expansion command. -/
def OrdinaryName (n : Str) : Prop :=
  NameWord n ∧ ¬ "expandafter".toList <+: n ∧ ¬ "noexpand".toList <+: n ∧ ¬ "csname".toList <+: n

/-- A written `\let`: `\let<ws>\name<eq>\target`, where `eq` is white space, or an equals sign right behind the name with white space
after it. -/
structure LetText where
  ws : Str
  name : Str
  eq : Str
  target : Str

def LetText.written (l : LetText) : Str := "\\let".toList ++ (l.ws ++ '\\' :: (l.name ++ (l.eq ++ '\\' :: l.target)))

def LetText.Ok (l : LetText) : Prop :=
  Blank l.ws ∧ OrdinaryName l.name ∧ (Blank l.eq ∨ ∃ b, Blank b ∧ l.eq = '=' :: b) ∧ l.target ≠ [] ∧ ∀ c ∈ l.target, isSpace c = false ∧ c ≠ '{'

/-- A written `\def`: `\word<ws>\name<params>{body}`. -/
structure DefText where
  word : String
  ws : Str
  name : Str
  params : Str
  body : Str

def DefText.written (d : DefText) : Str := d.word.toList ++ (d.ws ++ '\\' :: (d.name ++ (d.params ++ '{' :: (d.body ++ ['}']))))

/-- The words that define a command in this way. -/
def defTextWords : List String := ["\\long\\edef", "\\long\\gdef", "\\long\\xdef", "\\long\\def", "\\edef", "\\gdef", "\\xdef", "\\def"]

/-- The parameter text is empty or begins with white space or `#`. -/
def DefText.Ok (d : DefText) : Prop :=
  d.word ∈ defTextWords ∧ Blank d.ws ∧ OrdinaryName d.name ∧ (∀ c ∈ d.params.head?, isSpace c = true ∨ c = '#') ∧ '{' ∉ d.params ∧
  Wrappable '{' '}' d.body

end L2J.Spec
