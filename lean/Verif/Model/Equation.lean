import Verif.Model.Boxes
import Verif.Model.Content
import Verif.Model.Nested
import Verif.Model.Tabular
import Verif.Model.Token
/-! Model of latex2json/parser/handlers/equation.py, with `convert_any_env_pairs_to_begin_end` of environment.py:119-133. -/
namespace L2J.Eqn

/-- `EQUATION_ENV`, equation.py:18-28. It is a Python set: the order in which its elements are visited depends on the hash seed, so
`handle` takes the order as a parameter. -/
def envNames : List Str := ["equation", "align", "aligned", "gather", "multline", "eqnarray", "flalign", "alignat", "dmath"].map String.toList

/-- The keys of `PATTERNS`, equation.py:31-50. -/
inductive Kind
  | env (name : Str)
  | dollars
  | dollar
  | brackets
  | parens
deriving DecidableEq, Repr

/-- `\\begin\s*\{name\*?\}` or `\\end\s*\{name\*?\}` at the current position (equation.py:45): the number of characters. The pattern is
deterministic for a name without stars and braces. -/
def matchTag (kw name s : Str) : Option Nat :=
  if startsWith s kw then
    let r := s.drop kw.length
    match spacesBrace r with
    | none => none
    | some a =>
      if startsWith (r.drop a) name then
        match r.drop (a + name.length) with
        | '}' :: _ => some (kw.length + a + name.length + 1)
        | '*' :: '}' :: _ => some (kw.length + a + name.length + 2)
        | _ => none
      else none
  else none

/-- A pattern of equation.py:31-49 at the start: the first group and the end of the match. In all of them the text between is matched
lazily (or, for `$`, without the delimiter), so that it ends at the first closing delimiter. -/
def matchKind (k : Kind) (s : Str) : Option (Str × Nat) :=
  match k with
  | .env name =>
    match matchTag "\\begin".toList name s with
    | none => none
    | some a => (searchWith (matchTag "\\end".toList name) (s.drop a)).map fun p => ((s.drop a).take p.1, a + p.2)
  | .dollars =>
    if startsWith s "$$".toList then (findSub "$$".toList (s.drop 2)).map fun i => ((s.drop 2).take i, i + 4) else none
  | .dollar =>
    if startsWith s "$".toList then
      let b := (s.drop 1).takeWhile (· != '$')
      if ((s.drop 1).drop b.length).head? = some '$' then some (b, b.length + 2) else none
    else none
  | .brackets =>
    if startsWith s "\\[".toList then (findSub "\\]".toList (s.drop 2)).map fun i => ((s.drop 2).take i, i + 4) else none
  | .parens =>
    -- no DOTALL: the text is on one line
    if startsWith s "\\(".toList then
      (findSub "\\)".toList (s.drop 2)).bind fun i => if ((s.drop 2).take i).contains '\n' then none else some ((s.drop 2).take i, i + 4)
    else none

/-- The keys in the order of `PATTERNS`, equation.py:41-50. -/
def kinds (order : List Str) : List Kind := order.map .env ++ [.dollars, .dollar, .brackets, .parens]

/-- The loop of equation.py:182-185. -/
def firstKind (s : Str) : List Kind → Option (Kind × Str × Nat)
  | [] => none
  | k :: ks =>
    match matchKind k s with
    | some m => some (k, m)
    | none => firstKind s ks

/-- `LABEL_PATTERN`, patterns.py:46 `\\label\s*{`, at the start: the number of characters. -/
def matchLabel (s : Str) : Option Nat :=
  if startsWith s "\\label".toList then (spacesBrace (s.drop 6)).map (· + 6) else none

/-- `LABEL_PATTERN.finditer(s)`, equation.py:111: start and end of each match. `skip` characters of the last match are still to be
passed. -/
def labelIter : Nat → Nat → Str → List (Nat × Nat)
  | _, _, [] => []
  | k + 1, pos, _ :: cs => labelIter k (pos + 1) cs
  | 0, pos, c :: cs =>
    match matchLabel (c :: cs) with
    | some e => (pos, pos + e) :: labelIter (e - 1) (pos + 1) cs
    | none => labelIter 0 (pos + 1) cs

/-- The body of the loop of equation.py:115-123. -/
def takeLabel (m : Nat × Nat) (acc : Str × List Str) : Str × List Str :=
  match extractNestedContent (acc.1.drop (m.2 - 1)) '{' '}' with
  | none => acc
  | some (l, e) => if l.isEmpty then acc else (acc.1.take m.1 ++ acc.1.drop (m.2 - 1 + e), l :: acc.2)

/-- `_handle_labels`, equation.py:106-125; the matches are visited from the last one. -/
def handleLabels (eqn : Str) : Str × List Str :=
  match labelIter 0 0 eqn with
  | [] => (eqn, [])
  | ms => let r := ms.foldr takeLabel (eqn, []); (strip r.1, r.2)

/-- `\w|@` of `ENV_PAIR_PATTERN`, environment.py:20 (on ASCII letters). -/
def pairChar (c : Char) : Bool := isWord c || c == '@'

/-- `\b` between two characters. -/
def boundary (a : Option Char) (b : Option Char) : Bool := (a.map isWord).getD false != (b.map isWord).getD false

/-- The first prefix of `run`, from the longest one with `n` characters, that ends at a word boundary and has its `\end…` behind it. -/
def pairPrefix (run after : Str) : Nat → Option Str
  | 0 => none
  | n + 1 =>
    let name := run.take (n + 1)
    let rest := run.drop (n + 1) ++ after
    if boundary name.getLast? rest.head? && (findSub ("\\end".toList ++ name) rest).isSome then some name
    else pairPrefix run after n

/-- `ENV_PAIR_PATTERN` (DOTALL) at the start, environment.py:20: the first group. Between the name and `\end…` the pattern allows any
text. -/
def matchPair : Str → Option Str
  | '\\' :: s => pairPrefix (s.takeWhile pairChar) (s.dropWhile pairChar) (s.takeWhile pairChar).length
  | _ => none

/-- `pattern.search(content)`, environment.py:123: the first group of the leftmost match. -/
def searchPair : Str → Option Str
  | [] => none
  | c :: cs =>
    match matchPair (c :: cs) with
    | some n => some n
    | none => searchPair cs

/-- `\begin{name}inner\end{name}`, environment.py:130. -/
def beginEnd (name inner : Str) : Str := "\\begin{".toList ++ name ++ "}".toList ++ inner ++ "\\end{".toList ++ name ++ "}".toList

/-- `convert_any_env_pairs_to_begin_end`, environment.py:119-133. `none`: not finished with the fuel. If no matching pair is found the
positions are -1, which in Python's slices counts from the end. -/
def convertPairs : Nat → Str → Option Str
  | 0, _ => none
  | n + 1, s =>
    match searchPair s with
    | none => some s
    | some name =>
      match extractNestedPattern s (.lit ('\\' :: name)) (.lit ("\\end".toList ++ name)) with
      | some (a, e, inner) => (convertPairs n inner).bind fun i => convertPairs n (s.take a ++ beginEnd name i ++ s.drop e)
      | none => (convertPairs n []).bind fun i => convertPairs n (s.take (s.length - 1) ++ beginEnd name i ++ s.drop (s.length - 1))

/-- `x.strip("$")`, equation.py:96. -/
def stripDollars (s : Str) : Str := ((s.dropWhile (· == '$')).reverse.dropWhile (· == '$')).reverse

/-- equation.py:81-83 and :94-96: the text put in place of a box. -/
def boxText {V} : Option (Boxes.Value V) → Str
  | some (.text s) => stripDollars (strip s)
  | _ => []

/-- The loop of `_strip_out_formatting`, equation.py:72-104. The equation is `done ++ rest` and the search for a backslash goes on at
`rest`. `fmt` is the formatting handler (with `spacing` excluded): the content of the token, if it is a string, and the length. `none`:
not finished with the fuel. -/
def stripLoop {V} (fmt : Str → Str × Nat) (env : Boxes.Env V) : Nat → Boxes.State V → Str → Str → Option (Boxes.State V × Str)
  | 0, _, _, _ => none
  | n + 1, st, done, rest =>
    match findSub ['\\'] rest with
    | none => some (st, strip (done ++ rest))
    | some i =>
      let r := rest.drop i
      if 0 < (fmt r).2 then stripLoop fmt env n st (done ++ rest.take i) ((fmt r).1 ++ r.drop (fmt r).2)
      else
        let b := Boxes.handle env st r
        if 0 < b.2.2 then stripLoop fmt env n b.1 (done ++ rest.take i) (boxText b.2.1 ++ r.drop b.2.2)
        else stripLoop fmt env n b.1 (done ++ rest.take (i + 1)) (rest.drop (i + 1))

/-- `GENERIC_COMMAND_PATTERN` at the start, content_command.py:84: `\\[a-zA-Z]+\b`; the number of characters. A shorter name is followed
by a letter, so that there is no boundary behind it. -/
def matchGeneric : Str → Option Nat
  | '\\' :: s =>
    let n := s.takeWhile Cmds.isLetter
    if n.isEmpty then none else if boundary n.getLast? (s.drop n.length).head? then some (n.length + 1) else none
  | _ => none

/-- `ContentCommandHandler.search`, content_command.py:281-294. -/
def searchContent : Nat → Str → Option Nat
  | 0, _ => none
  | fuel + 1, s =>
    match searchWith matchGeneric s with
    | none => none
    | some (a, e) => if Content.canHandle (s.drop a) then some a else (searchContent fuel (s.drop e)).map (· + e)

/-- `f"___PLACEHOLDER_{len(blocks)}___"`, equation.py:157. -/
def placeholder (n : Nat) : Str := "___PLACEHOLDER_".toList ++ natStr n ++ "___".toList

/-- The tokens stored for a command, equation.py:158-160; none for a command without a token. -/
def tokensOf : Content.Out → List Content.CTok
  | .none => []
  | .tok t => [t]
  | .toks l => l

/-- The outcome of `_extract_contentcommands_as_placeholders`: the new text and the tokens in order, or an exception. -/
inductive Placed
  | raised
  | ok (aliases : Dict Str) (out : Str) (blocks : List (Str × List Content.CTok))
deriving DecidableEq

/-- Text put before the rest. -/
def Placed.prepend (t : Str) (bs : List (Str × List Content.CTok)) : Placed → Placed
  | .raised => .raised
  | .ok al out blocks => .ok al (t ++ out) (bs ++ blocks)

/-- The loop of equation.py:144-170 on `math[current_pos:]`; `n` is `len(blocks)`. Each iteration consumes a character. -/
def placeLoop : Nat → Dict Str → Nat → Str → Placed
  | 0, al, _, s => .ok al s []
  | fuel + 1, al, n, s =>
    match searchContent (s.length + 1) s with
    | none => .ok al s []
    | some a =>
      match Content.handle id al (s.drop a) with
      | .raised => .raised
      | .ok al' out e =>
        let next := s.drop (a + if 0 < e then e else 1)
        if (tokensOf out).isEmpty then (placeLoop fuel al' n next).prepend (s.take a) []
        else (placeLoop fuel al' (n + 1) next).prepend (s.take a ++ placeholder n) [(placeholder n, tokensOf out)]

/-- `_extract_contentcommands_as_placeholders`, equation.py:137-175. -/
def place (al : Dict Str) (math : Str) : Placed := placeLoop (math.length + 1) al 0 math

/-- An equation token, equation.py:222-241. -/
structure Tok where
  content : Str
  block : Bool
  align : Bool
  numbered : Bool
  labels : List Str
  placeholders : List (Str × List Content.CTok)
deriving DecidableEq

/-- The delimiter of `_get_equation_delimiter`, equation.py:127-135. -/
def Kind.delimiter : Kind → Str
  | .env _ => []
  | .dollars => "$$".toList
  | .dollar => "$".toList
  | .brackets => "\\]".toList
  | .parens => "\\)".toList

/-- equation.py:187-210: the text of the equation and the end, before the labels are taken out. -/
def body (k : Kind) (m : Str × Nat) (s : Str) : Str × Nat :=
  let eqn := strip m.1
  match k with
  | .env name => if name = "alignat".toList then (strip (eqn.drop (extractArgs eqn 1 0).endPos), m.2) else (eqn, m.2)
  | k =>
    if checkDelimiterBalance eqn '{' '}' then (eqn, m.2)
    else
      match extractEquationContent s k.delimiter with
      | some (eqn', e) => (eqn', if 0 < e then e else m.2)
      | none => ([], m.2)

/-- What the handler keeps between calls: the boxes of its box handler and the aliases of its content handler. -/
structure State (V : Type) where
  boxes : Boxes.State V
  aliases : Dict Str

/-- The result of `handle`. -/
inductive Res (V : Type)
  | running
  | raised
  | ok (st : State V) (t : Option Tok) (pos : Nat)

/-- `"align" in pattern_name or "eqnarray" in pattern_name`, equation.py:229. -/
def Kind.isAlign : Kind → Bool
  | .env name => (findSub "align".toList name).isSome || (findSub "eqnarray".toList name).isSome
  | _ => false

/-- `"inline" not in pattern_name`, equation.py:226. -/
def Kind.isBlock : Kind → Bool
  | .dollar | .parens => false
  | _ => true

/-- equation.py:232-235: an environment whose `\end` has no star. -/
def isNumbered (k : Kind) (matched : Str) : Bool :=
  match k with
  | .env _ => !endsWith (strip matched) "*}".toList
  | _ => false

/-- `handle`, equation.py:177-244. `process` is `process_content_fn`. -/
def handle {V} (order : List Str) (process : Str → Str) (fmt : Str → Str × Nat) (env : Boxes.Env V) (fuel : Nat) (st : State V) (s : Str) : Res V :=
  match firstKind s (kinds order) with
  | none => .ok st none 0
  | some (k, m) =>
    if (strip m.1).isEmpty then .ok st none m.2
    else
      let b := body k m s
      let l := handleLabels b.1
      match convertPairs fuel l.1 with
      | none => .running
      | some eqn =>
        match stripLoop fmt env fuel st.boxes [] (process eqn) with
        | none => .running
        | some (boxes, eqn) =>
          match place st.aliases eqn with
          | .raised => .raised
          | .ok al out blocks =>
            .ok ⟨boxes, al⟩ (some ⟨out, k.isBlock, k.isAlign, isNumbered k (s.take m.2), l.2, blocks⟩) b.2

end L2J.Eqn
