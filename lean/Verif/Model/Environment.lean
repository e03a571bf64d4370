import Verif.Model.Dict
import Verif.Model.Args
import Verif.Model.SubstArgs
import Verif.Model.Nested
/-! Model of user environments, latex2json/parser/handlers/environment.py. -/
namespace L2J.Envs

/-- A stored environment, environment.py:401-409. -/
structure EnvDef where
  beginDef : Str
  endDef : Str
  numArgs : Nat
  optArgs : List Str
deriving DecidableEq

/-- A text up to `}` after blanks and `{`, `\s*\{([^}]*?)\}`: the group and the length. -/
def braceGroup (s : Str) : Option (Str × Nat) :=
  match s.dropWhile isSpace with
  | '{' :: r =>
    let n := r.takeWhile (· ≠ '}')
    if (r.drop n.length).isEmpty then none else some (n, (s.takeWhile isSpace).length + n.length + 2)
  | _ => none

/-- `\\(?:new|renew|provide)environment`, environment.py:30. -/
def newKeywords : List Str := ["\\newenvironment".toList, "\\renewenvironment".toList, "\\provideenvironment".toList]

/-- `NEW_ENVIRONMENT_PATTERN.match`, environment.py:29-31: the name and the end. If a star is there and is not taken the match
fails at it, so the matcher never gives it back. -/
def matchNew (s : Str) : Option (Str × Nat) :=
  match newKeywords.find? (fun k => startsWith s k) with
  | none => none
  | some k =>
    let r := s.drop k.length
    let star := if startsWith r ['*'] then 1 else 0
    (braceGroup (r.drop star)).map fun e => (e.1, k.length + star + e.2)

/-- `\\begin\s*\{([^}]*?)\}`, the first alternative of `ENVIRONMENT_PATTERN`, environment.py:16, :24: name and end. -/
def matchBegin (s : Str) : Option (Str × Nat) :=
  if startsWith s "\\begin".toList then (braceGroup (s.drop 6)).map fun e => (e.1, 6 + e.2) else none

/-- environment.py:517-525: the number of arguments and the defaults, from the blocks in brackets (`isdigit` on ASCII). -/
def argSpec (blocks : List Str) : Nat × List Str :=
  match blocks with
  | [] => (0, [])
  | b :: bs => ((if !(strip b).isEmpty && (strip b).all isDigit then digitsVal (strip b) else 0), bs.map strip)

/-- `handle_newenvironment`, environment.py:487-556: the environments afterwards and the position. -/
def handleNew (envs : Dict EnvDef) (content : Str) (m : Str × Nat) : Dict EnvDef × Nat :=
  let r1 := seqBlocks (content.drop m.2) '[' ']' none
  let spec := argSpec r1.1
  let pos := m.2 + r1.2
  let r2 := seqBlocks (content.drop pos) '{' '}' (some 2)
  match r2.1 with
  | [b, e] => (Dict.set envs m.1 ⟨b, e, spec.1, spec.2⟩, pos + r2.2)
  | _ => (envs, pos)

/-- environment.py:437-443: one optional argument per default. -/
def takeOpts : List Str → Str → List (Option Str) × Str
  | [], content => ([], content)
  | d :: ds, content =>
    if startsWith content ['['] then
      match extractNestedContent content '[' ']' with
      | some (a, e) => let r := takeOpts ds (content.drop e); (some a :: r.1, r.2)
      | none => let r := takeOpts ds content; (none :: r.1, r.2)
    else let r := takeOpts ds content; (some d :: r.1, r.2)

/-- environment.py:446-452: the required arguments. -/
def takeReqs : Nat → Str → List (Option Str) × Str
  | 0, content => ([], content)
  | n + 1, content =>
    if startsWith content ['{'] then
      match extractNestedContent content '{' '}' with
      | some (a, e) => let r := takeReqs n (content.drop e); (some a :: r.1, r.2)
      | none => let r := takeReqs n content; (none :: r.1, r.2)
    else let r := takeReqs n content; (some [] :: r.1, r.2)

/-- `expand_environments`, environment.py:416-464. -/
def expand (alpha : Char → Bool) (envs : Dict EnvDef) (name text : Str) : Str :=
  match Dict.get? envs name with
  | none => text
  | some d =>
    let o := takeOpts d.optArgs text
    let r := takeReqs (d.numArgs - d.optArgs.length) o.2
    let args := o.1 ++ r.1
    substituteArgs alpha d.beginDef args false ++ '\n' :: (r.2 ++ '\n' :: substituteArgs alpha d.endDef args false)

/-- What `handle` makes of an environment: the expansion of a user environment (environment.py:559-568), or the name and the
inner text given to the built-in ones (:199-252), which are not modelled here. -/
inductive Token where
  | user (name content : Str)
  | base (name inner : Str)
deriving DecidableEq

/-- `try_match_env` on `\begin`, environment.py:255-305, and `handle`, :341-357 and :572-581. `none` if the text is neither a
definition nor a `\begin`: pairs such as `\list … \endlist` and groups are not modelled. -/
def handle (alpha : Char → Bool) (envs : Dict EnvDef) (content : Str) : Option (Dict EnvDef × Option Token × Nat) :=
  match matchNew content with
  | some m => let r := handleNew envs content m; some (r.1, none, r.2)
  | none =>
    match matchBegin content with
    | none => none
    | some m =>
      let name := strip m.1
      -- (-1, -1, "") if the end is missing, then the end of the match is used
      let found := match findMatchingEnvBlock content name 0 with
        | some (_, e, inner) => (inner, e)
        | none => ([], m.2)
      if name = "comment".toList then some (envs, none, found.2)
      else
        match Dict.get? envs name with
        | some _ => some (envs, some (.user name (expand alpha envs name found.1)), found.2)
        | none => some (envs, some (.base name found.1), found.2)

/-- The environments after handling some texts. -/
def envsAfter (alpha : Char → Bool) (envs : Dict EnvDef) (texts : List Str) : Dict EnvDef :=
  texts.foldl (fun d t => match handle alpha d t with | some r => r.1 | none => d) envs

end L2J.Envs
