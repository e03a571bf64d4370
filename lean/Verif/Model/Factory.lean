import Verif.Model.PyStr
/- Model of latex2json/structure/token_factory.py and of the token classes in latex2json/structure/tokens/. -/
namespace L2J.Factory

/-- tokens/types.py:4-62 `TokenType`. -/
inductive TokenType where
  | document | title | «section» | paragraph | abstract | appendix | command | text | quote
  | environment | math_env | figure | subfigure | table | tabular | caption
  | includegraphics | includepdf | diagram | list | item
  | equation | code | algorithm | algorithmic | citation | ref | url | footnote
  | bibliography | bibitem | author | email | affiliation | keywords | address | group
deriving DecidableEq, Repr

/-- The value of a `type` key: a member of the enum, the custom type `date` (token_factory.py:22-26) or any
other string. -/
inductive TypeKey where
  | known (t : TokenType)
  | date
  | unknown (s : Str)
deriving DecidableEq, Repr

/-- Remaining keys of a dict (labels, styles, name, numbering, level, display, rowspan, ...) with opaque
scalar values. -/
abbrev Rest := List (Str × Str)

/-- A Python value in parser output. In `dict`, `absent` marks a missing `content`/`title`/`proof` key and
`phs = none` a missing `placeholders` key (whose value is a dict from names to lists). -/
inductive Val where
  | absent
  | none
  | str (s : Str)
  | atom (s : Str)
  | lst (l : List Val)
  | dict (type : Option TypeKey) (content title proof : Val) (phKeys : Option (List Str)) (phs : List Val) (rest : Rest)
deriving Repr

/-- A value after token creation: `tok` is an instance of the class registered for the type
(tokens/registry.py), `cell` a `TableCell`, `raw` a dict left as it is. -/
inductive Tok where
  | absent
  | none
  | str (s : Str)
  | atom (s : Str)
  | lst (l : List Tok)
  | tok (type : TokenType) (content title proof : Tok) (phKeys : Option (List Str)) (phs : List Tok) (rest : Rest)
  | cell (content : Tok) (rest : Rest)
  | raw (v : Val)
deriving Repr

/-- An element acceptable to pydantic for `BaseToken`: an instance (a dict without `type` does not validate;
dicts with one have been converted). -/
def Tok.isTok : Tok → Bool
  | .tok .. => true
  | _ => false

def Tok.isTokOf (t : TokenType) : Tok → Bool
  | .tok u .. => decide (u = t)
  | _ => false

def Tok.isStr : Tok → Bool
  | .str _ => true
  | _ => false

/-- Validates against `List[...]` with the given element test. -/
def Tok.isListOf (p : Tok → Bool) : Tok → Bool
  | .lst l => l.all p
  | _ => false

/-- The value pydantic stores for a `content` field of the class registered for each type
(tokens/base.py, document.py, table_figure_list.py, graphics.py, ref_and_cite.py, code_and_algo.py,
bibliography.py, metadata.py): `none` = ValidationError; an absent key takes the class's default. -/
def contentField (t : TokenType) (c : Tok) : Option Tok :=
  match t with
  -- content: str
  | .text | .code | .algorithmic | .includegraphics | .includepdf | .diagram | .url | .equation =>
    if c.isStr then some c else Option.none
  -- content: Optional[str] = None
  | .command =>
    match c with
    | .absent => some .none
    | .none => some .none
    | c => if c.isStr then some c else Option.none
  -- content: List[BaseToken]
  | .title | .group | .footnote | .caption | .math_env =>
    if c.isListOf Tok.isTok then some c else Option.none
  -- content: List[BaseToken] = []
  | .appendix | .algorithm =>
    match c with
    | .absent => some (.lst [])
    | c => if c.isListOf Tok.isTok then some c else Option.none
  -- content: Optional[List[BaseToken]] = []
  | .section | .paragraph =>
    match c with
    | .absent => some (.lst [])
    | .none => some .none
    | c => if c.isListOf Tok.isTok then some c else Option.none
  -- content: List[ItemToken] = []
  | .list =>
    match c with
    | .absent => some (.lst [])
    | c => if c.isListOf (Tok.isTokOf .item) then some c else Option.none
  -- content: List[BibItemToken] = []
  | .bibliography =>
    match c with
    | .absent => some (.lst [])
    | c => if c.isListOf (Tok.isTokOf .bibitem) then some c else Option.none
  -- content: List[str]
  | .citation | .ref => if c.isListOf Tok.isStr then some c else Option.none
  -- content: List[List[BaseToken]]
  | .author => if c.isListOf (Tok.isListOf Tok.isTok) then some c else Option.none
  -- content: List[List[cell]]; the rows are built by TabularToken.process
  | .tabular => some c
  -- content: Union[str, List[BaseToken]]
  | .document | .abstract | .quote | .environment | .figure | .subfigure | .table | .item | .bibitem
  | .email | .affiliation | .keywords | .address =>
    if c.isStr || c.isListOf Tok.isTok then some c else Option.none

/-- The value stored for a `title` field; classes without that field ignore the key. -/
def titleField (t : TokenType) (c : Tok) : Option Tok :=
  match t with
  -- title: List[BaseToken] (required)
  | .section | .paragraph => if c.isListOf Tok.isTok then some c else Option.none
  -- title: Optional[List[BaseToken]] = None
  | .item | .citation | .ref | .math_env =>
    match c with
    | .absent => some .none
    | .none => some .none
    | c => if c.isListOf Tok.isTok then some c else Option.none
  -- title: Optional[str | List[BaseToken]] = None
  | .url =>
    match c with
    | .absent => some .none
    | .none => some .none
    | c => if c.isStr || c.isListOf Tok.isTok then some c else Option.none
  -- title: Optional[str] = None
  | .code | .caption =>
    match c with
    | .absent => some .none
    | .none => some .none
    | c => if c.isStr then some c else Option.none
  | _ => some .absent

/-- The value stored for `proof: Optional[MathEnvToken] = None` (tokens/base.py:71). -/
def proofField (p : Tok) : Option Tok :=
  match p with
  | .absent => some .none
  | .none => some .none
  | p => if p.isTokOf .math_env then some p else Option.none

variable (scalars : TokenType → Rest → Option Rest)

/-- pydantic validation of a whole token (`model_validate` / the constructor). `scalars` stands for its
treatment of all other fields: `none` = ValidationError, otherwise the stored values. -/
def validate (t : TokenType) (content title proof : Tok) (phKeys : Option (List Str)) (phs : List Tok) (rest : Rest) :
    Option Tok :=
  match contentField t content, titleField t title, scalars t rest with
  | some c, some ti, some r => some (.tok t c ti proof phKeys phs r)
  | _, _, _ => Option.none

/-- The characters of a string as one-character strings (iteration over a `str`). -/
def strItems (s : Str) : List Tok := s.map fun c => .str [c]

/-- A result, `none` = an exception. `Tok.none` is Python's `None`. -/
abbrev R := Option Tok

/-- `if processed_item is not None: output.append(processed_item)`. -/
def consSome (t : Tok) (ts : List Tok) : List Tok :=
  match t with
  | .none => ts
  | t => t :: ts

/-- Keys passed on by `MathEnvToken.process` (tokens/base.py:95-103) and `EquationToken.process`
(tokens/equation.py:41-49). -/
def mathKeys : List Str := ["labels".toList, "styles".toList, "name".toList, "numbering".toList]
def eqKeys : List Str := ["display".toList, "align".toList, "numbering".toList, "labels".toList, "styles".toList]

def pick (ks : List Str) (r : Rest) : Rest := r.filter fun kv => ks.contains kv.1

def hasKey (k : Str) (r : Rest) : Bool := r.any fun kv => kv.1 == k

/-- tokens/tabular.py:78-82: the two spans, 1 by default. -/
def spans (r : Rest) : Rest :=
  [("rowspan".toList, ((r.find? fun kv => kv.1 == "rowspan".toList).map (·.2)).getD ['1']),
   ("colspan".toList, ((r.find? fun kv => kv.1 == "colspan".toList).map (·.2)).getD ['1'])]

/-- token_factory.py:72-95 `_create_token` for a member of the enum, given the results of the recursive calls
each branch makes (branches not taken are not evaluated in Python; here they are just unused). `pSeq` is the
result for `proof`, `some .absent` without that key. -/
def assemble (t : TokenType) (content : Val) (rows bib phs : Option (List Tok)) (cSeq tSeq : Option (Option (List Tok)))
    (pSeq c ti : R) (phKeys : Option (List Str)) (rest : Rest) : R :=
  match t with
  | .tabular => rows.map fun rows => .tok .tabular (.lst rows) .absent .absent Option.none [] []
  | .bibliography => bib.map fun items => .tok .bibliography (.lst items) .absent .absent Option.none [] []
  | .equation =>
    -- `data["content"]` raises KeyError when absent; validation requires a str
    match phs, content with
    | some phs, .str s => validate scalars .equation (.str s) .absent .absent phKeys phs (pick eqKeys rest)
    | _, _ => Option.none
  | .math_env =>
    match cSeq, tSeq, pSeq with
    | some c, some ti, some p =>
      match proofField p with
      | Option.none => Option.none
      | some p =>
        validate scalars .math_env (.lst (c.getD [])) ((ti.map Tok.lst).getD .absent) p Option.none [] (pick mathKeys rest)
    | _, _, _ => Option.none
  | t =>
    match c, ti with
    | some c, some ti => validate scalars t c ti .absent Option.none [] rest
    | _, _ => Option.none

mutual
/-- token_factory.py:28-50 `create`, with `_get_token_type` and `_create_token` (52-95). -/
def create : Val → R
  | .str s => some (.str s)
  | .lst _ => Option.none
  | .absent => Option.none
  | .none => Option.none
  | .atom _ => Option.none
  | .dict (some (.known t)) content title proof phKeys phs rest =>
    assemble scalars t content (tabRows content) (bibItems content) (createLists phs) (createSeq content)
      (createSeq title) (createProof proof) (processContent content) (processContent title) phKeys rest
  | .dict _ _ _ _ _ _ _ => some .none
/-- tokens/base.py:92-93: `if "proof" in data: proof = create_token(data["proof"])`. -/
def createProof : Val → R
  | .absent => some .absent
  | .str s => some (.str s)
  | .lst _ => Option.none
  | .none => Option.none
  | .atom _ => Option.none
  | .dict ty c t p k ph r => create (.dict ty c t p k ph r)
/-- token_factory.py:97-115 `_process_content`; an absent key stays absent (82-85). -/
def processContent : Val → R
  | .absent => some .absent
  | .none => some .none
  | .str s => some (.str s)
  | .atom s => some (.atom s)
  | .lst l => (processItems l).map Tok.lst
  | .dict ty content title proof phKeys phs rest =>
    match ty with
    | Option.none => some (.raw (.dict ty content title proof phKeys phs rest))
    | some k => create (.dict (some k) content title proof phKeys phs rest)
/-- token_factory.py:102-113: the loop over a list. -/
def processItems : List Val → Option (List Tok)
  | [] => some []
  | x :: xs =>
    match processContent x, processItems xs with
    | some t, some ts =>
      match x with
      | .dict (some _) _ _ _ _ _ _ => some (consSome t ts)
      | _ => some (t :: ts)
    | _, _ => Option.none
/-- `for item in data["content"]: content.append(create_token(item))`; `none` inside = key absent.
Iterating over a string gives its characters, which `create` returns unchanged. -/
def createSeq : Val → Option (Option (List Tok))
  | .absent => some Option.none
  | .str s => some (some (strItems s))
  | .lst l => (createAll l).map some
  | _ => Option.none
def createAll : List Val → Option (List Tok)
  | [] => some []
  | x :: xs =>
    match create x, createAll xs with
    | some t, some ts => some (t :: ts)
    | _, _ => Option.none
/-- tokens/equation.py:33-39: one list of created tokens per placeholder; they must be tokens
(`Dict[str, List[BaseToken]]`). -/
def createLists : List Val → Option (List Tok)
  | [] => some []
  | x :: xs =>
    match createSeq x, createLists xs with
    | some (some l), some ts => if l.all Tok.isTok then some (.lst l :: ts) else Option.none
    | _, _ => Option.none
/-- tokens/bibliography.py:30-44: `BibliographyToken.process` keeps the items of type bibitem. -/
def bibItems : Val → Option (List Tok)
  | .absent => some []
  | .lst l => bibList l
  | .str _ => some []
  | _ => Option.none
def bibList : List Val → Option (List Tok)
  | [] => some []
  | x :: xs =>
    match x with
    | .dict (some (.known .bibitem)) c t p k ph r =>
      match create (.dict (some (.known .bibitem)) c t p k ph r), bibList xs with
      | some t, some ts => some (t :: ts)
      | _, _ => Option.none
    | _ => bibList xs
/-- tokens/tabular.py:57-93 `TabularToken.process`: `data["content"]` must be a list of rows. -/
def tabRows : Val → Option (List Tok)
  | .lst l => tabRowList l
  | _ => Option.none
def tabRowList : List Val → Option (List Tok)
  | [] => some []
  | x :: xs =>
    match x, tabRowList xs with
    | .lst cells, some rs =>
      match tabCells cells with
      | some r => some (.lst r :: rs)
      | Option.none => Option.none
    | _, _ => Option.none
def tabCells : List Val → Option (List Tok)
  | [] => some []
  | x :: xs =>
    match tabCells xs with
    | Option.none => Option.none
    | some ts =>
      match x with
      | .none => some (.none :: ts)
      | .str s => some (.str s :: ts)
      | .atom s => some (.atom s :: ts)
      | .absent => some ts
      | .lst l => (nestedList l).map fun l' => .lst l' :: ts
      | .dict (some k) c t p pk ph r =>
        (create (.dict (some k) c t p pk ph r)).map (· :: ts)
      | .dict Option.none c _ _ _ _ r =>
        if hasKey "rowspan".toList r || hasKey "colspan".toList r then
          match c with
          | .lst l => (nestedList l).map fun l' => .cell (.lst l') (spans r) :: ts
          | .str s => some (.cell (.str s) (spans r) :: ts)
          | .none => some (.cell .none (spans r) :: ts)
          | _ => Option.none
        else some ts
/-- tokens/tabular.py:95-110 `_process_nested_list`. -/
def nestedList : List Val → Option (List Tok)
  | [] => some []
  | x :: xs =>
    match nestedList xs with
    | Option.none => Option.none
    | some ts =>
      match x with
      | .dict (some k) c t p pk ph r => (create (.dict (some k) c t p pk ph r)).map (· :: ts)
      | .dict Option.none c t p pk ph r => some (.raw (.dict Option.none c t p pk ph r) :: ts)
      | .lst l => (nestedList l).map fun l' => .lst l' :: ts
      | .none => some (.none :: ts)
      | .str s => some (.str s :: ts)
      | .atom s => some (.atom s :: ts)
      | .absent => some ts
end

/-- builder.py:437-444: the loop of `build` over the organised tokens; `if data` skips `None` and empty
strings. -/
def buildAll : List Val → Option (List Tok)
  | [] => some []
  | x :: xs =>
    match create scalars x, buildAll xs with
    | some t, some ts =>
      match t with
      | .none => some ts
      | .str [] => some ts
      | t => some (t :: ts)
    | _, _ => Option.none

end L2J.Factory
