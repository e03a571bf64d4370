import Verif.Model.Environment
import Verif.Model.Equation
import Verif.Model.Bib
/-! Model of the built-in environments, groups and list items: latex2json/parser/handlers/environment.py and item.py.
Simplifications: `\w` and `str.lower` are the ASCII ones. -/
namespace L2J.EnvT

/-- environment.py:32. -/
def listEnvs : List Str := ["itemize".toList, "enumerate".toList, "description".toList]

/-- environment.py:34-44. -/
def layoutEnvs : List Str := ["group".toList, "center".toList, "flushleft".toList, "flushright".toList, "minipage".toList,
  "adjustbox".toList, "spacing".toList, "small".toList, "subequations".toList]

/-- environment.py:47-60. -/
def numberedMath : List Str := ["theorem".toList, "lemma".toList, "proposition".toList, "corollary".toList, "definition".toList,
  "conjecture".toList, "axiom".toList, "example".toList, "exercise".toList, "remark".toList, "observation".toList]

/-- environment.py:63-70. -/
def mathEnvs : List Str := numberedMath ++ ["proof".toList, "notation".toList, "solution".toList, "note".toList, "claim".toList]

/-- `ENV_TYPES`, environment.py:73-94. -/
def envTypes : List (Str × Str) :=
  [("document".toList, "document".toList), ("abstract".toList, "abstract".toList), ("thebibliography".toList, "bibliography".toList),
   ("appendix".toList, "appendix".toList), ("appendices".toList, "appendix".toList), ("table".toList, "table".toList),
   ("subtable".toList, "table".toList), ("subsubtable".toList, "table".toList), ("tabular".toList, "tabular".toList),
   ("figure".toList, "figure".toList), ("subfigure".toList, "subfigure".toList), ("subfloat".toList, "subfigure".toList),
   ("wrapfigure".toList, "figure".toList), ("algorithm".toList, "algorithm".toList), ("algorithmic".toList, "algorithmic".toList),
   ("quote".toList, "quote".toList), ("list".toList, "list".toList)] ++
  listEnvs.map (·, "list".toList) ++ layoutEnvs.map (·, "group".toList) ++ mathEnvs.map (·, "math_env".toList)

/-- `get_env_type`, environment.py:115-116. -/
def envType (name : Str) : Str := (Dict.get? envTypes (lower name)).getD "environment".toList

/-- `ENV_ARGS`, environment.py:97-112: optional and mandatory arguments. -/
def envArgs : List (Str × (Nat × Nat)) :=
  [("thebibliography".toList, (0, 1)), ("minipage".toList, (0, 1)), ("list".toList, (0, 2)), ("adjustwidth".toList, (0, 2)),
   ("spacing".toList, (0, 1)), ("multicols".toList, (0, 1)), ("table".toList, (1, 0)), ("figure".toList, (1, 0)),
   ("subfigure".toList, (1, 1)), ("wrapfigure".toList, (1, 2)), ("adjustbox".toList, (0, 1)), ("CJK".toList, (0, 2))]

/-- The token made by `_handle_environment`: absent keys are `false`, `none` and `[]`. -/
structure BTok where
  type : Str
  name : Str
  numbered : Bool
  title : Option Str
  args : List Str
  content : Str
deriving DecidableEq

/-- environment.py:221-227. -/
def isNumbered (star : Bool) (ty name : Str) : Bool :=
  if ty = "math_env".toList ∧ star = false then numberedMath.contains (lower name)
  else (ty = "table".toList ∨ ty = "figure".toList ∨ ty = "algorithm".toList) && !startsWith name "sub".toList

/-- environment.py:231-234: what is left behind the bracket group. -/
def bracketRest (inner : Str) : Option (Str × Nat) → Str
  | some (_, e) => inner.drop e
  | none => inner

/-- environment.py:235-236. -/
def bracketTitle (ty : Str) : Option (Str × Nat) → Option Str
  | some (t, _) => if t ≠ [] ∧ ty = "math_env".toList then some t else none
  | none => none

/-- `_handle_environment`, environment.py:206-255. `thms` and `floats` are `_newtheorems` and `_floatnames`. -/
def baseToken (thms floats : Dict Str) (envName inner : Str) : BTok :=
  let star := envName.contains '*'
  let bare := envName.filter (· ≠ '*')
  let name := (Dict.get? thms bare).getD bare
  let shown := (Dict.get? floats name).getD name
  let ty := envType name
  -- extract_nested_content(inner, "[", "]")
  let br := extractNestedContent inner '[' ']'
  let inner1 := bracketRest inner br
  let title := bracketTitle ty br
  match Dict.get? envArgs name with
  | none => ⟨ty, shown, isNumbered star ty name, title, [], inner1⟩
  | some (o, r) =>
    let o' := if 0 < o ∧ br.isSome then o - 1 else o
    let a := extractArgs inner1 r o'
    ⟨ty, shown, isNumbered star ty name, title, a.req, inner1.drop a.endPos⟩

/-- Where the last occurrence of `w` in `s` ends. -/
def lastEnd (w : Str) : Str → Option Nat
  | [] => if w = [] then some 0 else none
  | c :: cs =>
    match lastEnd w cs with
    | some e => some (e + 1)
    | none => if startsWith (c :: cs) w then some w.length else none

/-- A match of `ENVIRONMENT_PATTERN`, environment.py:23-26. -/
inductive EnvMatch where
  /-- `\begin{name}`: the group and the end -/
  | begin (name : Str) (stop : Nat)
  /-- `\name … \endname`: the name and the end, behind the last `\endname` because `.*` is greedy -/
  | pair (name : Str) (stop : Nat)
deriving DecidableEq

/-- `ENVIRONMENT_PATTERN.match`, environment.py:23-26 (DOTALL). -/
def envMatch (s : Str) : Option EnvMatch :=
  match Envs.matchBegin s with
  | some (n, e) => some (.begin n e)
  | none =>
    match Eqn.matchPair s with
    | some n => some (.pair n (1 + n.length + (lastEnd ("\\end".toList ++ n) (s.drop (1 + n.length))).getD 0))
    | none => none

/-- What `try_match_env` makes of a match: the name, the inner text and the end; or an exception. -/
inductive Found where
  | ok (name inner : Str) (stop : Nat)
  | raises
deriving DecidableEq

/-- `try_match_env`, environment.py:258-305. For a pair whose name starts with `begin`, group 1 is None and `.strip()` raises. -/
def tryMatchEnv (content : Str) : Option Found :=
  match envMatch content with
  | none => none
  | some (.begin n stop) =>
    let name := strip n
    match findMatchingEnvBlock content name 0 with
    | some (_, e, inner) => some (.ok name inner e)
    | none => some (.ok name [] stop)
  | some (.pair n stop) =>
    if startsWith n "begin".toList then some .raises
    else
      let found := match extractNestedPattern content (.lit ('\\' :: n)) (.lit ("\\end".toList ++ n)) with
        | some (_, e, inner) => (inner, e)
        | none => ([], stop)
      -- \@float{table}
      if n = "@float".toList then
        match Envs.braceGroup found.1 with
        | some (m, e) => some (.ok (strip m) (found.1.drop e) found.2)
        | none => some (.ok n found.1 found.2)
      else some (.ok n found.1 found.2)

/-- A word such as `\bgroup\b`. -/
def wordRe (w : Str) : Re := .seq (.lit w) (.nlook (.chr isWord))

/-- `BEGIN_GROUP_PATTERN.match`, environment.py:14: is it `\bgroup`? -/
def groupMatch (s : Str) : Option Bool :=
  if ((wordRe "\\begingroup".toList).matchAt [] s).isSome then some false
  else if ((wordRe "\\bgroup".toList).matchAt [] s).isSome then some true
  else none

/-- `try_match_group`, environment.py:308-338: the inner text and the end. -/
def tryMatchGroup (content : Str) : Option (Str × Nat) :=
  match groupMatch content with
  | none => none
  | some b =>
    let r := if b then extractNestedPattern content (wordRe "\\bgroup".toList) (wordRe "\\egroup".toList)
      else extractNestedPattern content (wordRe "\\begingroup".toList) (wordRe "\\endgroup".toList)
    r.map fun x => (x.2.2, x.2.1)

/-- environment.py:330-334. -/
def groupToken (inner : Str) : BTok := ⟨"group".toList, "group".toList, false, none, [], inner⟩

/-- The state of `EnvironmentHandler`: environment.py:187-188, :394, :472. -/
structure St where
  envs : Dict Envs.EnvDef
  thms : Dict Str
  floats : Dict Str

/-- What `handle` returns: the environments afterwards, the token and the end; or an exception. -/
inductive Res where
  | ok (envs : Dict Envs.EnvDef) (tok : Option BTok) (stop : Nat)
  | raises

/-- `EnvironmentHandler._handle_environment`, environment.py:555-566. -/
def envToken (alpha : Char → Bool) (st : St) (name inner : Str) : BTok :=
  match Dict.get? st.envs name with
  | some _ => ⟨envType name, name, false, none, [], Envs.expand alpha st.envs name inner⟩
  | none => baseToken st.thms st.floats name inner

/-- `EnvironmentHandler.handle`, environment.py:340-358, :568-577. -/
def handle (alpha : Char → Bool) (st : St) (content : Str) : Res :=
  match Envs.matchNew content with
  | some m => let r := Envs.handleNew st.envs content m; .ok r.1 none r.2
  | none =>
    match tryMatchEnv content with
    | some .raises => .raises
    | some (.ok name inner stop) =>
      if name = "comment".toList then .ok st.envs none stop else .ok st.envs (some (envToken alpha st name inner)) stop
    | none =>
      match tryMatchGroup content with
      | some (inner, e) => .ok st.envs (some (groupToken inner)) e
      | none => .ok st.envs none 0

/-- `try_handle`, environment.py:361-372: the length of the environment or group; `none`: no token. -/
def tryHandle (content : Str) : Except Unit (Option Nat) :=
  match tryMatchEnv content with
  | some .raises => .error ()
  | some (.ok _ _ stop) => .ok (some stop)
  | none => .ok ((tryMatchGroup content).map (·.2))

/-- `BaseEnvironmentHandler.search`, environment.py:375-389: where the first environment or group starts. (Which of the two it is does
not matter to the caller below.) -/
def search : Str → Option Nat
  | [] => none
  | c :: cs =>
    if (envMatch (c :: cs)).isSome || (groupMatch (c :: cs)).isSome then some 0 else (search cs).map (· + 1)

/-- `\\item\b` at the start. -/
def isItem (s : Str) : Bool := startsWith s "\\item".toList && !((s.drop 5).head?.map isWord).getD false

/-- `ITEM_PATTERN.search`, item.py:9-11: the pattern matches wherever `\item\b` stands. -/
def searchItem : Str → Option Nat
  | [] => none
  | c :: cs => if isItem (c :: cs) then some 0 else (searchItem cs).map (· + 1)

/-- `find_pattern_while_skipping_nested_envs` with `ITEM_PATTERN`, environment.py:136-180. `last` is `end_pos`. An exception of
`try_handle` is passed on; out of fuel does not happen (every round moves on). -/
def skipEnvs (content : Str) : Nat → Nat → Option Nat → Except Unit (Option Nat)
  | 0, _, last => .ok last
  | fuel + 1, start, last =>
    match searchItem (content.drop start) with
    | none => .ok (last.map fun _ => content.length)
    | some next =>
      match search (content.drop start) with
      | none => .ok (some (start + next))
      | some env =>
        if next < env then .ok (some (start + next))
        else
          match tryHandle (content.drop (start + env)) with
          | .error e => .error e
          | .ok none => .ok last
          | .ok (some len) => skipEnvs content fuel (start + env + len) (some (start + env + len))

/-- The lazy `[\s\S]*?` up to `\item\b` or `$`: its length. -/
def itemText : Str → Nat
  | [] => 0
  | c :: cs => if isItem (c :: cs) || (c :: cs) = ['\n'] then 0 else itemText cs + 1

/-- `(?:\[(.*?)\])?` (DOTALL) at the start: the group and what is left. -/
def itemTitle : Str → Option Str × Str
  | '[' :: s =>
    let t := s.takeWhile (· ≠ ']')
    if (s.drop t.length).isEmpty then (none, '[' :: s) else (some t, s.drop (t.length + 1))
  | s => (none, s)

/-- The token of an item. -/
structure Item where
  title : Option Str
  content : Str
deriving DecidableEq

/-- What `ItemHandler.handle` returns. -/
inductive ItemRes where
  | ok (tok : Option Item) (stop : Nat)
  | raises
deriving DecidableEq

/-- item.py:36-37: an empty title is not stored. -/
def shownTitle : Option Str → Option Str
  | some (c :: cs) => some (strip (c :: cs))
  | _ => none

/-- `ItemHandler.handle`, item.py:19-43. `_handle_environment("item", …)` is called on the handler's own, empty dictionaries. -/
def handleItem (content : Str) : ItemRes :=
  if isItem content then
    let r0 := (content.drop 5).dropWhile isSpace
    let t := itemTitle r0
    let r := t.2.dropWhile isSpace
    let start := content.length - r.length
    let n := itemText r
    if n = 0 then .ok none start
    else
      match skipEnvs content (content.length + 1) start none with
      | .error _ => .raises
      | .ok out =>
        let stop := out.getD (start + n)
        let tok := baseToken [] [] "item".toList (strip (slice content start stop))
        .ok (some ⟨shownTitle t.1, tok.content⟩) stop
  else .ok none 0

/-- `(?:\[([^]]*)\])?`: the length. -/
def bracketLen : Str → Nat
  | '[' :: y => if (y.drop (y.takeWhile (· ≠ ']')).length).isEmpty then 0 else (y.takeWhile (· ≠ ']')).length + 2
  | _ => 0

/-- `\\newtheorem\*?{([^}]*)}(?:\[([^]]*)\])?{([^}]*)}(?:\[([^]]*)\])?` (new_definition.py:73-75) and `_handle_newtheorem` (:398-410):
name, title and end. The optional bracket group is given back by the matcher only to fail. -/
def newtheorem (s : Str) : Option (Str × Str × Nat) :=
  if startsWith s "\\newtheorem".toList then
    let r := s.drop 11
    let star := if startsWith r ['*'] then 1 else 0
    match r.drop star with
    | '{' :: r1 =>
      match Envs.braceGroup ('{' :: r1) with
      | none => none
      | some (name, e1) =>
        let r2 := r1.drop (e1 - 1)
        let r3 := r2.drop (bracketLen r2)
        match r3 with
        | '{' :: r4 =>
          match Envs.braceGroup ('{' :: r4) with
          | none => none
          | some (title, e2) => some (name, title, 11 + star + e1 + bracketLen r2 + e2 + bracketLen (r4.drop (e2 - 1)))
        | _ => none
    | _ => none
  else none

/-- `_process_new_definition_token` on a theorem, tex_parser.py:254-278: an empty name is not stored. -/
def learnTheorem (thms : Dict Str) (s : Str) : Dict Str :=
  match newtheorem s with
  | some (name, title, _) => if name = [] then thms else Dict.set thms name title
  | none => thms

end L2J.EnvT
