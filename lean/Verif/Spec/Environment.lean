import Verif.Model.Environment
import Verif.Spec.SubstArgs
import Verif.Spec.Nested
import Verif.Spec.Wrapped
/-! What user environments mean. -/
namespace L2J.Spec

/-- A definition: keyword (0 new, 1 renew, 2 provide), starred or not, name, number of arguments and defaults (none: no
brackets at all), code before and after. -/
structure EnvDefine where
  keyword : Fin 3
  star : Bool
  name : Str
  args : Option (Str × List Str)
  beginCode : Str
  endCode : Str

/-- The arguments written in brackets. -/
def EnvDefine.brackets (d : EnvDefine) : List (Str × Str) :=
  match d.args with
  | none => []
  | some (n, ds) => ([], n) :: ds.map ([], ·)

def EnvDefine.kw (d : EnvDefine) : Str :=
  (match d.keyword with | 0 => "\\newenvironment".toList | 1 => "\\renewenvironment".toList | 2 => "\\provideenvironment".toList) ++
    (if d.star then ['*'] else [])

/-- How it is written. -/
def EnvDefine.render (d : EnvDefine) : Str :=
  d.kw ++ '{' :: (d.name ++ '}' :: (wrapAll '[' ']' d.brackets ++ wrapAll '{' '}' [([], d.beginCode), ([], d.endCode)]))

/-- The number of arguments, and the defaults of the first of them. -/
def EnvDefine.count (d : EnvDefine) : Nat := match d.args with | none => 0 | some (n, _) => digitsVal n
def EnvDefine.defaults (d : EnvDefine) : List Str := match d.args with | none => [] | some (_, ds) => ds.map strip

/-- It can be written: the number is a number, the rest is balanced. -/
def EnvDefine.Ok (d : EnvDefine) : Prop :=
  '}' ∉ d.name ∧ (∀ n ds, d.args = some (n, ds) → n ≠ [] ∧ (∀ c ∈ n, isDigit c = true) ∧ ∀ x ∈ ds, Wrappable '[' ']' x) ∧
  Wrappable '{' '}' d.beginCode ∧ Wrappable '{' '}' d.endCode

/-- The latest definition of a name. -/
def latestEnv (name : Str) (ds : List EnvDefine) : Option EnvDefine := (ds.filter fun d => d.name = name).getLast?

/-- What parameters in a code stand for: with no arguments or no parameters the code itself, otherwise each parameter (with
the fewest hashes) its argument. Codes with a parameter `#0` are excluded. -/
def Substitutes (code : Str) (args : List Str) (out : Str) : Prop :=
  ∃ ts, Reads code ts ∧
    ((args = [] ∨ ∀ k ds, Tok.param k ds ∉ ts) → out = code) ∧
    ∀ k, args ≠ [] → MinHashes ts k → (∀ ds, Tok.param k ds ∈ ts → 1 ≤ digitsVal ds) → out = ts.flatMap (substTok (args.map some) k)

/-- A use: optional arguments, required arguments, body. -/
structure EnvUse where
  opts : List Str
  reqs : List Str
  body : Str

/-- What stands between `\begin{name}` and `\end{name}`. -/
def EnvUse.inner (u : EnvUse) : Str :=
  wrapAll '[' ']' (u.opts.map ([], ·)) ++ (wrapAll '{' '}' (u.reqs.map ([], ·)) ++ u.body)

/-- The body without blanks at the ends (at its beginning they stay if there are arguments before it). -/
def EnvUse.trimmed (u : EnvUse) : Str := if u.opts = [] ∧ u.reqs = [] then strip u.body else rstrip u.body

/-- It fits a definition: not too many arguments, and what follows missing ones cannot be taken for one. -/
def EnvUse.Fits (u : EnvUse) (d : EnvDefine) : Prop :=
  u.opts.length ≤ d.defaults.length ∧ u.reqs.length ≤ d.count - d.defaults.length ∧
  (∀ a ∈ u.opts, Wrappable '[' ']' a) ∧ (∀ a ∈ u.reqs, Wrappable '{' '}' a) ∧
  (u.opts.length < d.defaults.length → u.reqs = [] → u.trimmed.head? ≠ some '[') ∧
  (u.reqs.length < d.count - d.defaults.length → u.trimmed.head? ≠ some '{')

/-- The arguments: the optional ones, the defaults of those not given, the required ones, nothing for those not given. -/
def EnvUse.arguments (u : EnvUse) (d : EnvDefine) : List Str :=
  (u.opts ++ d.defaults.drop u.opts.length) ++ (u.reqs ++ List.replicate (d.count - d.defaults.length - u.reqs.length) [])

end L2J.Spec
