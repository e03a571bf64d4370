import Verif.Model.EnvToken
import Verif.Spec.Nested
import Verif.Spec.Wrapped
/-! What the built-in environments are. -/
namespace L2J.Spec

inductive Numbering where
  | never
  /-- with or without a star -/
  | always
  /-- only without a star -/
  | unstarred
deriving DecidableEq

/-- A known environment: its name, the type of its token, whether it is numbered, how many arguments in braces it takes. -/
structure EnvRow where
  name : String
  type : String
  numbering : Numbering
  reqs : Nat
deriving DecidableEq

/-- The environments for theorems and the like; their names may be written in any case (`\newtheorem{thm}{Theorem}`). -/
def theoremRows : List EnvRow :=
  (["theorem", "lemma", "proposition", "corollary", "definition", "conjecture", "axiom", "example", "exercise", "remark", "observation"].map
    fun n => ⟨n, "math_env", .unstarred, 0⟩) ++
  ["proof", "notation", "solution", "note", "claim"].map fun n => ⟨n, "math_env", .never, 0⟩

/-- The other known environments. -/
def otherRows : List EnvRow :=
  [⟨"document", "document", .never, 0⟩, ⟨"abstract", "abstract", .never, 0⟩, ⟨"thebibliography", "bibliography", .never, 1⟩,
   ⟨"appendix", "appendix", .never, 0⟩, ⟨"appendices", "appendix", .never, 0⟩, ⟨"tabular", "tabular", .never, 0⟩,
   -- floats
   ⟨"table", "table", .always, 0⟩, ⟨"figure", "figure", .always, 0⟩, ⟨"wrapfigure", "figure", .always, 2⟩,
   ⟨"algorithm", "algorithm", .always, 0⟩,
   -- parts of floats
   ⟨"subtable", "table", .never, 0⟩, ⟨"subsubtable", "table", .never, 0⟩, ⟨"subfigure", "subfigure", .never, 1⟩,
   ⟨"subfloat", "subfigure", .never, 0⟩, ⟨"algorithmic", "algorithmic", .never, 0⟩,
   -- lists and quotations
   ⟨"list", "list", .never, 2⟩, ⟨"itemize", "list", .never, 0⟩, ⟨"enumerate", "list", .never, 0⟩, ⟨"description", "list", .never, 0⟩,
   ⟨"quote", "quote", .never, 0⟩,
   -- layout
   ⟨"group", "group", .never, 0⟩, ⟨"center", "group", .never, 0⟩, ⟨"flushleft", "group", .never, 0⟩, ⟨"flushright", "group", .never, 0⟩,
   ⟨"minipage", "group", .never, 1⟩, ⟨"adjustbox", "group", .never, 1⟩, ⟨"spacing", "group", .never, 1⟩, ⟨"small", "group", .never, 0⟩,
   ⟨"subequations", "group", .never, 0⟩,
   ⟨"adjustwidth", "environment", .never, 2⟩, ⟨"multicols", "environment", .never, 1⟩, ⟨"CJK", "environment", .never, 2⟩]

/-- `r` describes the environments called `name`. An environment that is not known, in whatever case, has the type
`environment`. -/
def Describes (r : EnvRow) (name : Str) : Prop :=
  (r ∈ otherRows ∧ r.name.toList = name) ∨ (r ∈ theoremRows ∧ r.name.toList = lower name) ∨
  ((∀ q ∈ theoremRows ++ otherRows, lower q.name.toList ≠ lower name) ∧ r.type = "environment" ∧ r.numbering = .never ∧ r.reqs = 0)

/-- What is written between `\begin{name}` and `\end{name}`: blanks, an optional argument, arguments in braces (blanks before each), the
body. -/
structure EnvInner where
  lead : Str
  bracket : Option Str
  reqs : List (Str × Str)
  body : Str

def EnvInner.opt (u : EnvInner) : Str := match u.bracket with | some t => '[' :: (t ++ [']']) | none => []

def EnvInner.render (u : EnvInner) : Str := u.lead ++ (u.opt ++ (wrapAll '{' '}' u.reqs ++ u.body))

/-- The body without blanks at the end, and without those at its beginning unless arguments come before it. -/
def EnvInner.trimmed (u : EnvInner) : Str := if u.bracket = none ∧ u.reqs = [] then strip u.body else rstrip u.body

/-- It can be written so, for an environment with `n` arguments in braces: brackets match, and the body does not start with something
that would be read as one more argument. -/
def EnvInner.Fits (u : EnvInner) (n : Nat) : Prop :=
  (∀ c ∈ u.lead, isSpace c = true) ∧ (∀ t ∈ u.bracket, Wrappable '[' ']' t) ∧ WellWrapped '{' '}' u.reqs ∧ u.reqs.length ≤ n ∧
  (u.reqs.length < n → (u.body.dropWhile isSpace).head? ≠ some '{') ∧
  (u.bracket = none → u.reqs = [] → (u.body.dropWhile isSpace).head? ≠ some '[')

/-- A name as it is written, without its stars. -/
def unstar (name : Str) : Str := name.filter (· ≠ '*')

/-- The name the environment goes by: the title it was given with `\newtheorem`, or else its own. -/
def goesBy (titles : Str → Option Str) (written : Str) : Str := (titles (unstar written)).getD (unstar written)

/-- The token expected, with a given content. -/
def envWith (titles floats : Str → Option Str) (r : EnvRow) (written : Str) (u : EnvInner) (content : Str) : EnvT.BTok :=
  ⟨r.type.toList, (floats (goesBy titles written)).getD (goesBy titles written),
   (match r.numbering with | .never => false | .always => true | .unstarred => decide ('*' ∉ written)),
   (if r.type = "math_env" then u.bracket.filter (· ≠ []) else none),
   u.reqs.map (·.2), content⟩

/-- The token expected of `\begin{…} … \end{…}`. -/
def envExpected (titles floats : Str → Option Str) (r : EnvRow) (written : Str) (u : EnvInner) : EnvT.BTok :=
  envWith titles floats r written u u.trimmed

/-- The body as it is, with the blanks before it if there are no arguments. -/
def EnvInner.untrimmed (u : EnvInner) : Str := if u.bracket = none ∧ u.reqs = [] then u.lead ++ u.body else u.body

/-- A declaration `\newtheorem{name}[counter]{title}[within]`, starred or not. -/
structure TheoremDef where
  star : Bool
  name : Str
  counter : Option Str
  title : Str
  within : Option Str

def TheoremDef.opt : Option Str → Str
  | some c => '[' :: (c ++ [']'])
  | none => []

def TheoremDef.render (d : TheoremDef) : Str :=
  "\\newtheorem".toList ++ ((if d.star then ['*'] else []) ++ ('{' :: (d.name ++ '}' :: (TheoremDef.opt d.counter ++
    ('{' :: (d.title ++ '}' :: TheoremDef.opt d.within))))))

def TheoremDef.Ok (d : TheoremDef) : Prop :=
  d.name ≠ [] ∧ '}' ∉ d.name ∧ '}' ∉ d.title ∧ (∀ c ∈ d.counter, ']' ∉ c) ∧ ∀ c ∈ d.within, ']' ∉ c

/-- The latest title given to a name. -/
def titleOf (ds : List TheoremDef) (name : Str) : Option Str := ((ds.filter fun d => d.name = name).getLast?).map (·.title)

/-- The command `w` stands at the start of a text; `ok` says what may follow it (for `\bgroup` no further letter). -/
def StartsCommand (ok : Option Char → Bool) (w s : Str) : Prop := ∃ v, s = w ++ v ∧ ok v.head? = true

/-- The command `w` stands nowhere in `t`. -/
def CommandFree (ok : Option Char → Bool) (w t : Str) : Prop := ∀ u v, t = u ++ v → ¬ StartsCommand ok w v

/-- What may stand behind a command. -/
def MayFollow (ok : Option Char → Bool) (s : Str) : Prop := ∀ x ∈ s.head?, ok (some x) = true

/-- Texts in which the commands `o` and `c` match each other like brackets. -/
inductive GroupBody (ok : Option Char → Bool) (o c : Str) : Str → Prop
  | plain (t) : CommandFree ok o t → CommandFree ok c t → GroupBody ok o c t
  | group (t body rest) : CommandFree ok o t → CommandFree ok c t → GroupBody ok o c body → MayFollow ok body → GroupBody ok o c rest →
      MayFollow ok rest → GroupBody ok o c (t ++ o ++ body ++ c ++ rest)

/-- No letter, digit or underscore. -/
def noWord : Option Char → Bool
  | some x => !isWord x
  | none => true

/-- The two kinds of groups. -/
def groupCommands (b : Bool) : Str × Str :=
  if b then ("\\bgroup".toList, "\\egroup".toList) else ("\\begingroup".toList, "\\endgroup".toList)

end L2J.Spec
