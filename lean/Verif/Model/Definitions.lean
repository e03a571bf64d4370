import Verif.Model.Commands
/-! Model of the reading of definitions: latex2json/parser/handlers/new_definition.py, `NewDefinitionHandler`.

The patterns are written as `Re`, alternative by alternative; the alternation of the command's own name at the head of a pattern is written
out as a list of words (`\\(?:new|renew|provide)command` as three words), in the order in which the engine tries them. Group 0 is used for
that word. `\d` is ASCII only. -/
namespace L2J.Defn
open Cmds

/-- A definition token. -/
inductive Tok where
  /-- a definition that command_manager.py registers -/
  | cmd (d : Def)
  /-- `_handle_newtheorem`, :398-410 -/
  | theorem_ (name title : Str) (counter within : Option Str)
  /-- `_handle_crefname`, :317-325 -/
  | cref (name singular plural : Str)
  /-- :203-208 -/
  | floatname (name title : Str)
  /-- `_handle_definecolor`, :617-637 -/
  | color (name format value : Str)
  /-- `_handle_font`, :645-661; size and unit come together -/
  | font (name source : Str) (size : Option (Str × Str))
deriving DecidableEq

/-- The keys of `PATTERNS`, new_definition.py:47-113. -/
inductive Kind where
  | newcommand | let_ | robust | paired | operator | alphabets | def_ | namedef | newtheorem | theoremstyle | crefname | newtoks | newif
  | newboolean | newlength | setlength | newcounter | newother | columntype | newfam | setcounter | floatname | expandafter | endcsname
  | definecolor | font
deriving DecidableEq

/-- The dictionary order of `PATTERNS`. -/
def order : List Kind :=
  [.newcommand, .let_, .robust, .paired, .operator, .alphabets, .def_, .namedef, .newtheorem, .theoremstyle, .crefname, .newtoks, .newif,
   .newboolean, .newlength, .setlength, .newcounter, .newother, .columntype, .newfam, .setcounter, .floatname, .expandafter, .endcsname,
   .definecolor, .font]

/-- `DEF_COMMAND_PREFIX` before `\s*\\`, :21. -/
def defWords : List Str :=
  ["\\long\\edef", "\\long\\gdef", "\\long\\xdef", "\\long\\def", "\\edef", "\\gdef", "\\xdef", "\\def"].map String.toList

/-- `LET_COMMAND_PREFIX` before `\s*\\`, :22. -/
def letWords : List Str := ["\\futurelet", "\\let"].map String.toList

/-- The words a pattern begins with, :47-113. -/
def Kind.words : Kind → List Str
  | .newcommand => ["\\newcommand", "\\renewcommand", "\\providecommand"].map String.toList
  | .let_ => letWords
  | .robust => ["\\DeclareRobustCommand".toList]
  | .paired => ["\\DeclarePairedDelimiter".toList]
  | .operator => ["\\DeclareMathOperator".toList]
  | .alphabets => ["\\DeclareMathAlphabet", "\\DeclareSymbolFontAlphabet"].map String.toList
  | .def_ => defWords
  | .namedef => ["\\@namedef".toList]
  | .newtheorem => ["\\newtheorem".toList]
  | .theoremstyle => ["\\newtheoremstyle".toList]
  | .crefname => ["\\crefname", "\\Crefname"].map String.toList
  | .newtoks => ["\\newtoks".toList]
  | .newif => ["\\renewif", "\\newif"].map String.toList
  | .newboolean => ["\\renewboolean", "\\newboolean"].map String.toList
  | .newlength => ["\\renewlength", "\\newlength"].map String.toList
  | .setlength => ["\\setlength", "\\addtolength", "\\settoheight", "\\settodepth", "\\settowidth"].map String.toList
  | .newcounter => ["\\renewcounter", "\\newcounter", "\\stepcounter"].map String.toList
  | .newother => ["\\renewcount", "\\renewdimen", "\\renewskip", "\\renewmuskip", "\\newcount", "\\newdimen", "\\newskip", "\\newmuskip"].map String.toList
  | .columntype => ["\\newcolumntype", "\\renewcolumntype"].map String.toList
  | .newfam => ["\\newfam".toList]
  | .setcounter => ["\\setcounter".toList]
  | .floatname => ["\\floatname".toList]
  | .expandafter => ["\\expandafter", "\\noexpand"].map String.toList
  | .endcsname => ["\\endcsname".toList]
  | .definecolor => ["\\definecolor".toList]
  | .font => ["\\font".toList]

/-- An alternation of words. -/
def anyOf : List Str → Re
  | [] => .fail
  | w :: ws => .alt (.lit w) (anyOf ws)

/-- `\s*`. -/
def spaces : Re := .star reSpace

/-- `[<>=,\.;!|$%&#_{}()\[\]~]`, patterns.py:14. -/
def isSymbol (c : Char) : Bool := "<>=,.;!|$%&#_{}()[]~".toList.contains c

/-- `command_pattern`, patterns.py:14, with its group numbered `g`. -/
def cmdRe (g : Nat) : Re :=
  .seq (.lit ['\\']) (.group g (.alt (.plus (.chr isNameChar)) (.alt (.plus (.chr isSymbol)) (.chr isDigit))))

/-- `{([^}]*)}` with its group numbered `g`. -/
def inBraces (g : Nat) : Re := .seq (.lit ['{']) (.seq (.group g (.star (.chr (· != '}')))) (.lit ['}']))

/-- `BRACE_CONTENT_PATTERN`, patterns.py:5. -/
def braceContent (g : Nat) : Re := .seq (.lit ['{']) (.seq (.group g (.plus (.chr (· != '}')))) (.lit ['}']))

/-- `(?:\[([^]]*)\])?` with its group numbered `g`. -/
def optBracket (g : Nat) : Re := .opt (.seq (.lit ['[']) (.seq (.group g (.star (.chr (· != ']')))) (.lit [']'])))

/-- `command_with_opt_brace_pattern`, patterns.py:15; its groups are not used. -/
def cmdOrBrace : Re := .alt (braceContent 8) (cmdRe 9)

/-- `\s*\[[^]]*\]`, in :17. -/
def bracketRe : Re := .seq spaces (.seq (.lit ['[']) (.seq (.star (.chr (· != ']'))) (.lit [']'])))

/-- `POST_NEW_COMMAND_PATTERN_STR`, :16-19. -/
def postNew : Re :=
  .seq (.opt (.lit ['*'])) (.seq spaces (.seq (.alt (.seq (.lit ['{']) (.seq (cmdRe 1) (.lit ['}']))) (cmdRe 2))
    (.seq (.opt (.seq spaces (.seq (.lit ['[']) (.seq (.group 3 (.plus (.chr isDigit))) (.lit [']'])))))
      (.seq (.group 4 (.star bracketRe)) (.seq spaces (.lit ['{']))))))

/-- `\\([^...]+)`. -/
def bsRun (p : Char → Bool) (g : Nat) : Re := .seq (.lit ['\\']) (.group g (.plus (.chr p)))

/-- `(pt|cm|mm|in|ex|em|bp|dd|pc|sp)`, :111. -/
def units : List Str := ["pt", "cm", "mm", "in", "ex", "em", "bp", "dd", "pc", "sp"].map String.toList

/-- `\s+at\s+(\d+(?:\.\d+)?)(pt|...)`, :111. -/
def fontSize : Re :=
  .seq (.plus reSpace) (.seq (.lit "at".toList) (.seq (.plus reSpace)
    (.seq (.group 3 (.seq (.plus (.chr isDigit)) (.opt (.seq (.lit ['.']) (.plus (.chr isDigit)))))) (.group 4 (anyOf units)))))

/-- What follows the word, :47-113. -/
def Kind.tail : Kind → Re
  | .newcommand | .robust | .operator => postNew
  | .let_ | .def_ => .seq spaces (.lit ['\\'])
  | .paired =>
    .seq spaces (.seq (.alt (.seq (.lit ['{']) (.seq (bsRun (fun c => !isSpace c && c != '{' && c != '}') 1) (.lit ['}'])))
      (bsRun (fun c => !isSpace c && c != '{') 2)) (.seq spaces (.lit ['{'])))
  | .alphabets => .seq spaces (.lit ['{'])
  | .namedef => .seq spaces (inBraces 1)
  | .newtheorem => .seq (.opt (.lit ['*'])) (.seq (inBraces 1) (.seq (optBracket 2) (.seq (inBraces 3) (optBracket 4))))
  | .theoremstyle => .seq (.opt (.lit ['*'])) (.lit ['{'])
  | .crefname => .seq (inBraces 1) (.seq (inBraces 2) (.opt (inBraces 3)))
  | .newtoks => .seq spaces (.group 1 cmdOrBrace)
  | .newif => .seq spaces (.seq (.lit "\\if".toList) (.group 1 (.plus (.chr fun c => !isSpace c && c != '{' && c != '\\'))))
  | .newboolean | .newcounter => .seq spaces (braceContent 1)
  | .newlength => .seq spaces cmdOrBrace
  | .setlength => .seq spaces (.seq cmdOrBrace (.seq spaces (.lit ['{'])))
  | .newother | .newfam => .seq spaces (bsRun (fun c => !isSpace c && c != '{' && c != '[') 1)
  | .columntype =>
    .seq spaces (.seq (inBraces 1) (.seq (.opt (.seq spaces (.seq (.lit ['[']) (.seq (.plus (.chr isDigit)) (.lit [']'])))))
      (.seq spaces (.lit ['{']))))
  | .setcounter => .seq spaces (.seq (braceContent 1) (.seq spaces (braceContent 2)))
  | .floatname => .seq (inBraces 1) (inBraces 2)
  | .expandafter => .seq (.opt (.plus (.chr isWord))) (.nlook (.chr isLetter))
  | .endcsname => .nlook (.chr isLetter)
  | .definecolor => .seq spaces (.lit ['{'])
  | .font =>
    .seq spaces (.seq (bsRun (fun c => !isSpace c && c != '=') 1) (.seq spaces (.seq (.lit ['=']) (.seq spaces
      (.seq (.group 2 (.plus (.chr fun c => !isSpace c))) (.opt fontSize))))))

/-- A pattern of `PATTERNS`. -/
def Kind.re (k : Kind) : Re := .seq (.group 0 (anyOf k.words)) k.tail

/-- The first pattern that matches, :146-148. -/
def firstKind (s : Str) : List Kind → Option (Kind × Match)
  | [] => none
  | k :: ks =>
    match k.re.matchAt [] s with
    | some m => some (k, m)
    | none => firstKind s ks

/-- `can_handle`, :138-140. -/
def canHandle (s : Str) : Bool := (firstKind s order).isSome

/-- `\[(.*?)\]`, :377, without DOTALL. -/
def defaultRe : Re := .seq (.lit ['[']) (.seq (.group 1 (.lazyStar (.chr (· != '\n')))) (.lit [']']))

/-- `_handle_newcommand`, :355-396. The usage pattern is `Def.usage`. -/
def newcommandTok (s : Str) (m : Match) (mathOnly : Bool) : Option Tok × Nat :=
  match extractNestedContent (s.drop (m.stop - 1)) '{' '}' with
  | none => (none, m.stop)
  | some (body, e) =>
    let name := ((m.group 1).orElse fun _ => m.group 2).getD []
    let num := ((m.group 3).map digitsVal).getD 0
    let defaults := (defaultRe.findIter 0 [] ((m.group 4).getD [])).map fun d => (d.group 1).getD []
    (some (.cmd (.newcommand name body num defaults mathOnly)), m.stop + e - 1)

/-- `LET_COMMAND_PATTERN`, :27-29; DOTALL, so that `=.*` runs to the end of the text. -/
def letFull : Re :=
  .seq (anyOf letWords) (.seq spaces (.seq (.lit ['\\']) (.seq (.group 1 (.plus (.chr fun c => !isSpace c && c != '{' && c != '\\')))
    (.seq spaces (.group 2 (.alt (.seq (.lit ['=']) (.star (.chr fun _ => true))) (bsRun' fun c => !isSpace c && c != '{')))))))
where
  /-- `\\[^\s{]+` -/
  bsRun' (p : Char → Bool) : Re := .seq (.lit ['\\']) (.plus (.chr p))

/-- `DEF_COMMAND_PATTERN`, :24-26. Its group 2 is not used. -/
def defFull : Re :=
  .seq (anyOf defWords) (.seq spaces (.seq (.lit ['\\']) (.seq (.group 1 (.plus (.chr fun c => !isSpace c && c != '{' && c != '#')))
    (.seq (.group 3 (.star (.alt (.seq (.lit ['#']) (.plus (.chr isDigit))) (.chr (· != '{'))))) (.seq spaces (.lit ['{']))))))

/-- `_handle_let`, :327-353, for a match of `letFull`; `csname` is added by `_handle_def_prefix`. -/
def letTok (m : Match) (csname : Option Str) : Tok :=
  let name := strip ((m.group 1).getD [])
  let content := strip ((m.group 2).getD [])
  let (name, content) :=
    if startsWith content ['='] then (name, content.drop 1)
    else if endsWith name ['='] then (name.dropLast, content)
    else (name, content)
  if startsWith m.text "\\futurelet".toList then .cmd (.futurelet name content) else .cmd (.let_ name content csname)

/-- `_handle_def`, :516-547, on the text `s` it is given, for a match of `defFull`; `error`: raises (:566, `pre_arg[-1]` of an empty
text). `plen` is the length of the part of the match before the name. -/
def defTok (s : Str) (m : Match) (plen : Nat) (csname : Option Str) : Except Unit (Option Tok × Nat) :=
  match extractNestedContent (s.drop (m.stop - 1)) '{' '}' with
  | none => .ok (none, m.stop)
  | some (body, e) =>
    let name := (m.group 1).getD []
    let name := if startsWith name ['\\'] then name.drop 1 else name
    let params := strip ((m.group 3).getD [])
    if (cutParam (name ++ params)).map (·.1) = some [] then .error ()
    else .ok (some (.cmd (.def_ name params body (findSub "\\edef".toList (s.take plen)).isSome csname)), m.stop + e - 1)

/-- `\s*` and `EXPAND_PATTERN`, :456. -/
def skipExpand : Re := .seq spaces expandRe

/-- The loop over `\expandafter` and `\csname`, :459-476: where it stops and the texts of the `\csname`s. `none`: at the end of the text.
The fuel bounds the number of steps; the length suffices. -/
def csnames (s : Str) (maxBlocks : Nat) : Nat → Nat → List Str → Option (Nat × List Str)
  | 0, _, _ => none
  | fuel + 1, pos, acc =>
    if s.length ≤ pos then none
    else if acc.length < maxBlocks then
      match skipExpand.matchAt [] (s.drop pos) with
      | some m => csnames s maxBlocks fuel (pos + m.stop) acc
      | none =>
        match concatCsname (s.drop pos) with
        | some (inner, n) => csnames s maxBlocks fuel (pos + n) (acc ++ [inner])
        | none => some (pos, acc)
    else some (pos, acc)

/-- `inner.replace(" ", "")`. -/
def noBlanks (s : Str) : Str := s.filter (· != ' ')

/-- `_handle_def_prefix`, :441-509, for `\let` (`isLet`) and for `\def`. For `\futurelet` with a `\csname` the pattern that is added is left
out. -/
def defPrefix (isLet : Bool) (s : Str) (m : Match) : Except Unit (Option Tok × Nat) :=
  let pre := m.text.dropLast
  match csnames s (if isLet then 2 else 1) (s.length + 1) (m.stop - 1) [] with
  | none => .ok (none, 0)
  | some (pos, inners) =>
    let cmdStr := if inners.isEmpty then ['\\'] else inners.flatMap fun i => '\\' :: noBlanks i
    let searchPrefix := pre ++ cmdStr
    let pos := if s[pos]? = some '\\' then pos + 1 else pos
    let text := searchPrefix ++ s.drop pos
    if isLet then
      match letFull.matchAt [] text with
      | none => .ok (none, 0)
      | some fm => .ok (some (letTok fm inners.head?), pos + fm.stop - searchPrefix.length)
    else
      match defFull.matchAt [] text with
      | none => .ok (none, 0)
      | some fm =>
        match defTok text fm (pre.length + 1) inners.head? with
        | .error e => .error e
        | .ok (t, e) => .ok (t, pos + e - searchPrefix.length)

/-- `_handle_namedef`, :422-439. The end is before the start if there is no definition (:438 with `total_pos = 0`). -/
def namedefTok (s : Str) (m : Match) : Except Unit (Option Tok × Int) :=
  let pre := "\\def\\csname ".toList ++ ((m.group 1).getD []) ++ " \\endcsname ".toList
  let text := pre ++ s.drop m.stop
  match (Re.seq (anyOf defWords) (.seq spaces (.lit ['\\']))).matchAt [] text with
  | none => .ok (none, m.stop)
  | some dm =>
    match defPrefix false text dm with
    | .error e => .error e
    | .ok (t, total) => .ok (t, (m.stop : Int) + total - pre.length)

/-- `_parse_varname_from_brace_or_backslash`, :265-276. -/
def varName (v : Str) : Str :=
  let v := if startsWith v ['{'] then
      match extractNestedContent v '{' '}' with
      | some (x, _) => if x.isEmpty then v else strip x
      | none => v
    else v
  let v := if startsWith v ['\\'] then v.drop 1 else v
  match findSub ['{'] v with
  | some i => strip (v.take i)
  | none => v

/-- A name, unless it is empty. -/
def named (f : Str → Def) (v : Str) : Option Tok := if v.isEmpty then none else some (.cmd (f v))

/-- What is done for a match of a pattern, :149-216, other than "expandafter", "endcsname" and "@namedef". -/
def Kind.run (k : Kind) (s : Str) (m : Match) : Except Unit (Option Tok × Nat) :=
  let g := fun i => (m.group i).getD []
  match k with
  | .newcommand => .ok (newcommandTok s m false)
  | .robust => .ok (newcommandTok s m false)
  | .operator => .ok (newcommandTok s m true)
  | .let_ => defPrefix true s m
  | .def_ => defPrefix false s m
  | .paired =>
    -- :594-615
    match seqBlocks (s.drop (m.stop - 1)) '{' '}' (some 2) with
    | ([l, r], e) => .ok (some (.cmd (.paired (((m.group 1).orElse fun _ => m.group 2).getD []) l r)), m.stop - 1 + e)
    | _ => .ok (none, m.stop - 1)
  | .alphabets =>
    -- :220-243
    match seqBlocks (s.drop (m.stop - 1)) '{' '}' (some (if g 0 = "\\DeclareMathAlphabet".toList then 5 else 2)) with
    | ([], e) => .ok (none, e + (m.stop - 1))
    | (c :: _, e) => .ok (some (.cmd (.alphabet c)), e + (m.stop - 1))
  | .definecolor =>
    -- :617-637
    match seqBlocks (s.drop (m.stop - 1)) '{' '}' (some 3) with
    | ([a, b, c], e) => .ok (some (.color a b c), m.stop - 1 + e)
    | _ => .ok (none, m.stop - 1)
  | .font =>
    .ok (some (.font (g 1) (g 2) (match m.group 3, m.group 4 with | some a, some b => some (a, b) | _, _ => none)), m.stop)
  | .newtoks => .ok (named .newtoks (varName (strip (g 1))), m.stop)
  | .newtheorem =>
    -- :398-410; an empty optional argument is not recorded
    let opt := fun i => (m.group i).bind fun x => if x.isEmpty then none else some x
    .ok (some (.theorem_ (g 1) (g 3) (opt 2) (opt 4)), m.stop)
  | .theoremstyle => .ok (none, (seqBlocks (s.drop (m.stop - 1)) '{' '}' (some 9)).2 + (m.stop - 1))
  | .crefname => .ok (some (.cref (g 1) (g 2) (g 3)), m.stop)
  | .newif => .ok (some (.cmd (.newif (g 1))), m.stop)
  | .newlength => .ok (named .newlength (varName (m.text.drop (g 0).length)), m.stop)
  | .setlength =>
    -- :288-301
    let e := match extractNestedContent (s.drop (m.stop - 1)) '{' '}' with | some (_, e) => e | none => 0
    .ok (named .newlength (varName ((m.text.drop (g 0).length).dropLast)), e + (m.stop - 1))
  | .newfam => .ok (some (.cmd (.newX (strip (g 1)))), m.stop)
  | .newother => .ok (some (.cmd (.newX (strip (g 1)))), m.stop)
  | .newcounter => .ok (some (.cmd (.newcounter (strip (g 1)))), m.stop)
  | .setcounter => .ok (some (.cmd (.newcounter (strip (g 1)))), m.stop)
  | .floatname => .ok (some (.floatname (g 1) (g 2)), m.stop)
  | .columntype =>
    -- :245-251
    .ok (none, (match extractNestedContent (s.drop (m.stop - 1)) '{' '}' with | some (_, e) => e | none => 0) + (m.stop - 1))
  | .newboolean => .ok (none, m.stop)
  | .expandafter => .ok (none, m.stop)
  | .endcsname => .ok (none, m.stop)
  | .namedef => .ok (none, m.stop)

/-- With "@namedef". -/
def Kind.runInt (k : Kind) (s : Str) (m : Match) : Except Unit (Option Tok × Int) :=
  if k = .namedef then namedefTok s m
  else
    match k.run s m with
    | .error e => .error e
    | .ok (t, e) => .ok (t, e)

/-- `handle`, :142-218: the token and the end of what it was read from. The fuel bounds the number of leading `\expandafter`,
`\noexpand` and `\endcsname`, which are skipped (:209-212); the length suffices. `error`: raises. -/
def handleN : Nat → Str → Except Unit (Option Tok × Int)
  | 0, _ => .ok (none, 0)
  | fuel + 1, s =>
    match firstKind s order with
    | none => .ok (none, 0)
    | some (k, m) =>
      if k = .expandafter ∨ k = .endcsname then
        match handleN fuel (s.drop m.stop) with
        | .error e => .error e
        | .ok (t, e) => .ok (t, m.stop + e)
      else k.runInt s m

/-- `handle`. -/
def handle (s : Str) : Except Unit (Option Tok × Int) := handleN (s.length + 1) s

/-- The definition that is registered for a token, command_manager.py:66-127; `\definecolor`, `\newtheorem`, `\crefname` and `\floatname`
register no command. -/
def Tok.registers : Tok → Option Def
  | .cmd d => some d
  | .font n _ _ => some (.newX n)
  | _ => none

end L2J.Defn
