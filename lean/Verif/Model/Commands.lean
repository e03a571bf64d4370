import Verif.Model.Nested
import Verif.Model.Args
import Verif.Model.SubstArgs
import Verif.Model.IfElse
import Verif.Model.Dict
/-! Model of user-defined commands: latex2json/parser/handlers/command_manager.py, command_processor.py, and the usage patterns
built by new_definition.py. -/
namespace L2J.Cmds

/-- What the model leaves open: `str.isalpha` and `str.isalnum` on one character, the conversion of symbols to Unicode, and the
reading of a definition that begins with `\@ifstar` (contents of the two branches and the end of the conditional). -/
structure Cfg where
  alpha : Char → Bool
  alnum : Char → Bool
  conv : Str → Str
  ifstar : Str → Option (Str × Str × Nat)

/-- `[a-zA-Z]`. -/
def isLetter (c : Char) : Bool := ('a' ≤ c && c ≤ 'z') || ('A' ≤ c && c ≤ 'Z')

/-- `[a-zA-Z@]`. -/
def isNameChar (c : Char) : Bool := isLetter c || c == '@'

/-- `USAGE_SUFFIX`, new_definition.py:115. -/
def suffixRe : Re := .nlook (.chr isNameChar)

/-- A name that is put into a pattern without `re.escape`. Only the metacharacter `.` is modelled; the others stand for
themselves here. -/
def rawRe : Str → Re
  | [] => .eps
  | c :: cs => .seq (.chr fun x => if c == '.' then x != '\n' else x == c) (rawRe cs)

/-- `args_part_pattern`, new_definition.py:572, with its two groups numbered `g` and `g + 1`. -/
def argRe (g : Nat) : Re :=
  let notBrace : Re := .chr fun c => c != '{' && c != '}'
  let inner : Re := .star (.alt notBrace (.alt (.lit "\\{".toList) (.alt (.lit "\\}".toList)
    (.seq (.lit ['{']) (.seq (.star notBrace) (.lit ['}']))))))
  let notClose : Re := .chr fun c => c != '}'
  .seq (.star reSpace) (.alt (.seq (.lit ['{']) (.seq (.group g inner) (.lit ['}'])))
    (.group (g + 1) (.seq notClose (.lazyStar notClose))))

/-- The first `#(\d+)` of a text: what comes before and after it. -/
def cutParam : Str → Option (Str × Str)
  | [] => none
  | '#' :: rest =>
    if (rest.head?.map isDigit).getD false then some ([], rest.dropWhile isDigit)
    else (cutParam rest).map fun r => ('#' :: r.1, r.2)
  | c :: rest => (cutParam rest).map fun r => (c :: r.1, r.2)

/-- The texts before, between and after the parameters. The fuel bounds their number; the length suffices. -/
def pieces : Nat → Str → List Str
  | 0, s => [s]
  | n + 1, s =>
    match cutParam s with
    | none => [s]
    | some (a, b) => a :: pieces n b

/-- The parameters and what follows each, new_definition.py:574-588. -/
def paramsRe (g : Nat) : List Str → Re
  | [] => .eps
  | p :: ps => .seq (argRe g) (.seq (.lit p) (paramsRe (g + 2) ps))

/-- `_extract_def_pattern_parts`, new_definition.py:549-592, for the name and the stripped parameter text: the pattern after the
backslash, groups numbered from `g`, and the number of parameters. -/
def defBody (cfg : Cfg) (g : Nat) (pattern : Str) : Re × Nat :=
  match pieces pattern.length pattern with
  | [] => (.seq (.lit pattern) suffixRe, 0)
  | [p] => (.seq (.lit p) suffixRe, 0)
  | p :: ps =>
    let sfx := if ((p.getLast?.map fun c => cfg.alpha c || c == '@').getD false) then suffixRe else .eps
    (.seq (.lit p) (.seq sfx (paramsRe g ps)), ps.length)

/-- A definition token, new_definition.py. The fields are those of the token; `csname` is the text between `\csname` and
`\endcsname` if the name was written that way. -/
inductive Def where
  /-- `_handle_newcommand`, :355-396, and `\DeclareMathOperator`, :151-155 (`mathOnly`) -/
  | newcommand (name content : Str) (numArgs : Nat) (defaults : List Str) (mathOnly : Bool)
  /-- `_handle_declare_alphabets`, :220-243 -/
  | alphabet (cmd : Str)
  /-- `\futurelet`, :337-345 -/
  | futurelet (name content : Str)
  /-- `\let`, :346-353 -/
  | let_ (name content : Str) (csname : Option Str)
  /-- `\def`, :516-547; `params` is the stripped parameter text -/
  | def_ (name params content : Str) (edef : Bool) (csname : Option Str)
  | newif (name : Str)
  | newcounter (name : Str)
  | newlength (name : Str)
  | newtoks (name : Str)
  /-- types `newother`, `newfam` and `font` -/
  | newX (name : Str)
  /-- `_handle_paired_delimiter`, :594-615 -/
  | paired (name left right : Str)
deriving DecidableEq

/-- `cmd.strip("\\")`. -/
def stripBackslash (s : Str) : Str := ((s.dropWhile (· == '\\')).reverse.dropWhile (· == '\\')).reverse

/-- `token["name"]`. -/
def Def.name : Def → Str
  | .newcommand n _ _ _ _ => n
  | .alphabet c => stripBackslash c
  | .futurelet n _ => n
  | .let_ n _ _ => n
  | .def_ n _ _ _ _ => n
  | .newif n => n
  | .newcounter n => n
  | .newlength n => n
  | .newtoks n => n
  | .newX n => n
  | .paired n _ _ => n

/-- The addition for a `\csname`, new_definition.py:489-504. -/
def withCsname (main : Re) (csname : Option Str) (sfx : Re) : Re :=
  match csname with
  | none => main
  | some inner => .alt main (.seq (.lit "\\csname".toList) (.seq (rawRe inner) (.seq (.lit "\\endcsname".toList) sfx)))

/-- What the partition of new_definition.py:494-497 finds behind the name: everything, unless `re.escape` changed the name. (Whether
it does is approximated: a name of word characters and `@` is left alone.) -/
def partitioned (name : Str) (tail : Re) : Re := if name.all fun c => isWord c || c == '@' then tail else .eps

/-- The usage pattern of a `\newcommand`, new_definition.py:381-384. -/
def newcommandUsage (cfg : Cfg) (name : Str) : Re :=
  .seq (.lit ('\\' :: name)) (if (name.getLast?.map cfg.alnum).getD false then suffixRe else .eps)

/-- The pattern behind the name of a `\def`, for the `\csname` alternative: as `defBody` without the name. -/
def defTail (cfg : Cfg) (name params : Str) : Re :=
  match pieces (name ++ params).length (name ++ params) with
  | [] => suffixRe
  | [p] => .seq (.lit (p.drop name.length)) suffixRe
  | p :: ps =>
    let sfx := if ((p.getLast?.map fun c => cfg.alpha c || c == '@').getD false) then suffixRe else .eps
    .seq (.lit (p.drop name.length)) (.seq sfx (paramsRe (2 * ps.length + 1) ps))

def Def.numGroups (cfg : Cfg) : Def → Nat
  | .def_ name params _ _ csname => (defBody cfg 1 (name ++ params)).2 * (if csname.isSome then 4 else 2)
  | _ => 0

/-- `token["usage_pattern"]`, or the pattern the processor builds for tokens without one (command_processor.py:257, :331, :352, :359, :367). -/
def Def.usage (cfg : Cfg) : Def → Re
  | .newcommand name _ _ _ _ => newcommandUsage cfg name
  | .alphabet cmd => .seq (.lit cmd) suffixRe
  | .futurelet name _ => .seq (.lit ['\\']) (.seq (rawRe name) suffixRe)
  | .let_ name _ csname => withCsname (.seq (.lit ['\\']) (.seq (rawRe name) suffixRe)) csname suffixRe
  | .def_ name params _ _ csname =>
    withCsname (.seq (.lit ['\\']) (defBody cfg 1 (name ++ params)).1) csname (partitioned name (defTail cfg name params))
  | .newif name => .seq (.lit ['\\']) (.seq (rawRe name) (.alt (.lit "true".toList) (.lit "false".toList)))
  | .newcounter name => .seq (.lit "\\the".toList) (.seq (rawRe name) reWordEnd)
  | .newlength name => .seq (.lit ['\\']) (.seq (rawRe name) reWordEnd)
  | .newtoks name => .seq (.lit ['\\']) (.seq (rawRe name) reWordEnd)
  | .newX name => .seq (.lit ['\\']) (.seq (rawRe name) reWordEnd)
  | .paired name _ _ =>
    .seq (.lit ['\\']) (.seq (rawRe name) (.seq (.opt (.lit ['*'])) (.seq (.star reSpace) (.lit ['{']))))

/-- The text a command stands for: `get_definition`, command_processor.py:155-175. -/
inductive Body where
  | plain (d : Str)
  | star (withStar without : Str)
deriving DecidableEq

/-- `get_definition(match)`. -/
def Body.get (b : Body) (m : Match) : Str :=
  match b with
  | .plain d => d
  | .star t f => if endsWith m.text ['*'] then t else f

/-- The handler of a command entry. -/
inductive Handler where
  /-- `process_let`, :139-142 -/
  | const (d : Str)
  /-- `process_newcommand` without arguments, :196-201 -/
  | body (b : Body)
  /-- `process_newcommand` with arguments, :203-236 -/
  | args (numArgs : Nat) (defaults : List Str) (b : Body)
  /-- `process_newdef`, :304-314; the number of groups of the pattern -/
  | groups (n : Nat) (b : Body)
  /-- `default_ignore_handler`, :37-41 -/
  | ignore
  /-- `process_newtoks`, :340-349 -/
  | toks
  /-- `process_paired_delimiter`, :259-274 -/
  | paired (left right : Str)
deriving DecidableEq

/-- `CommandEntry`. -/
structure Entry where
  pattern : Re
  handler : Handler
  mathOnly : Bool

/-- `.+(\s+\w+)$`, command_processor.py:44. -/
def endsWithSpaceWord : Re :=
  .seq (.plus (.chr (· != '\n'))) (.seq (.plus reSpace) (.seq (.plus (.chr isWord)) .eos))

/-- `should_wrap_math_mode_arg`, command_processor.py:47-82. -/
def shouldWrap (cfg : Cfg) (out fullText : Str) (startPos endPos : Nat) : Bool :=
  let c := strip out
  match c.head?, c.getLast? with
  | some c0, some cl =>
    let before := if startPos > 0 then fullText[startPos - 1]? else none
    let nextAlnum := (fullText[endPos]?.map cfg.alnum).getD false
    if startPos > 0 && cfg.alnum c0 && (before.map cfg.alnum).getD false then true
    else if cfg.alnum cl && nextAlnum then true
    else if c0 == '\\' then
      let single := !(c.drop 1).isEmpty && (c.drop 1).all cfg.alpha
      if !single && startPos > 0 then
        (before == some '_' || before == some '^') || (endsWithSpaceWord.matchAt [] c).isSome
      else false
    else false
  | _, _ => false

/-- `wrap_math_mode_arg`, command_processor.py:85-91. -/
def wrapArg (text : Str) : Str :=
  let t := strip text
  if startsWith t ['{'] && endsWith t ['}'] then t else '{' :: t ++ ['}']

/-- The optional arguments of a use, over the defaults, command_processor.py:214-224. -/
def overlay : List Str → List Str → List Str
  | [], _ => []
  | d :: ds, [] => d :: ds
  | _ :: ds, b :: bs => b :: overlay ds bs

/-- The arguments of a use of a `\newcommand`, command_processor.py:212-234: them and the end of the last. `start` is the end of
the match. -/
def useArgs (numArgs : Nat) (defaults : List Str) (text : Str) (start : Nat) : List Str × Nat :=
  let (opts, end1) :=
    if defaults.length = 0 then (defaults, start)
    else
      let r := seqBlocks (text.drop start) '[' ']' (some defaults.length)
      (overlay defaults r.1, r.2 + start)
  let (args, end2) :=
    if numArgs - defaults.length > 0 then
      let r := seqBlocks (text.drop end1) '{' '}' (some (numArgs - defaults.length))
      (opts ++ r.1, r.2 + end1)
    else (opts, end1)
  (args ++ List.replicate (numArgs - args.length) [], end2)

/-- `entry["handler"](match, text, math_mode)`. -/
def Handler.run (cfg : Cfg) (h : Handler) (m : Match) (text : Str) (math : Bool) : Str × Nat :=
  match h with
  | .const d => (d, m.stop)
  | .body b => (b.get m, m.stop)
  | .args n ds b =>
    let r := useArgs n ds text m.stop
    (substituteArgs cfg.alpha (b.get m) (r.1.map some) math, r.2)
  | .groups n b =>
    (substituteArgs cfg.alpha (b.get m) (((List.range n).filterMap fun i => m.group (i + 1)).map some) math, m.stop)
  | .ignore => ([], m.stop)
  | .toks =>
    match extractNestedContent (text.drop m.stop) '{' '}' with
    | none => ([], m.stop)
    | some (_, e) => ([], m.stop + e)
  | .paired l r =>
    let startPos := m.stop - 1
    match extractNestedContent (text.drop startPos) '{' '}' with
    | none => ([], startPos)
    | some (content, e) =>
      let out := l ++ content ++ r
      let out := if math && shouldWrap cfg content out l.length (l.length + content.length) then l ++ wrapArg content ++ r else out
      (out, e + startPos)

/-- `sub_fn` of `_expand`, command_processor.py:405-421. -/
def subFn (cfg : Cfg) (e : Entry) (math : Bool) (text : Str) (m : Match) : Str × Nat :=
  let r := e.handler.run cfg m text math
  if math && shouldWrap cfg r.1 text m.start r.2 then (wrapArg r.1, r.2) else r

/-- One round of `_expand`: `substitute_patterns` with all entries, :435. `none` if it does not end. -/
def round (cfg : Cfg) (entries : Dict Entry) (math : Bool) (text : Str) : Option Str :=
  substPatterns Match.start (fun t => t.length + 1) (entries.map fun e => (e.2.pattern.search, subFn cfg e.2 math)) text

/-- The loop of `_expand`, command_processor.py:427-435, with the number of rounds left. `none`: does not end; `error`: raises
RecursionError. -/
def rounds (cfg : Cfg) (entries : Dict Entry) (math : Bool) : Nat → Str → Option (Except Unit Str)
  | 0, _ => some (.error ())
  | n + 1, t =>
    match round cfg entries math t with
    | none => none
    | some t' => if t' = t then some (.ok t') else rounds cfg entries math n t'

/-- `_expand` with its `max_depth`, command_processor.py:394-437. -/
def expandWith (cfg : Cfg) (entries : Dict Entry) (math : Bool) (text : Str) : Option (Except Unit Str) :=
  rounds cfg entries math 1000 text

/-- `CommandProcessor`: `commands` and `let_commands`, :100-101. -/
structure Proc where
  commands : Dict Entry
  lets : Dict Entry

/-- `clear`, :103-105. -/
def Proc.empty : Proc := ⟨[], []⟩

/-- `expand_commands`, command_processor.py:372-392. -/
def Proc.expand (cfg : Cfg) (p : Proc) (text : Str) (ignoreUnicode math : Bool) : Option (Except Unit Str) :=
  let cmds := if math then p.commands else p.commands.filter fun e => !e.2.mathOnly
  match expandWith cfg cmds math text with
  | none => none
  | some (.error e) => some (.error e)
  | some (.ok t) =>
    match expandWith cfg p.lets math t with
    | none => none
    | some (.error e) => some (.error e)
    | some (.ok t) => some (.ok (if ignoreUnicode then t else cfg.conv t))

/-- `_parse_definition_conditionals`, command_processor.py:155-175: the body and the usage pattern. -/
def conditional (cfg : Cfg) (definition : Str) (usage : Re) : Body × Re :=
  let d := strip definition
  if startsWith d "\\@ifstar".toList then
    match cfg.ifstar d with
    | none => (.plain definition, usage)
    | some (t, f, e) => (.star (t ++ d.drop e) (f ++ d.drop e), .seq usage (.opt (.lit ['*'])))
  else (.plain definition, usage)

/-- `WHITELISTED_COMMANDS`, patterns.py:69-169. -/
def whitelisted : List Str := ["newcommand", "begin", "end", "section", "subsection", "subsubsection", "paragraph",
  "subparagraph", "newline", "maketitle", "title", "author", "and", "thanks", "date", "part", "chapter", "abstract", "table",
  "figure", "cite", "citep", "citet", "caption", "captionof", "bibitem", "url", "ref", "appendix", "appendices", "\\", "\\\\",
  "textbf", "textit", "textsl", "textsc", "textsf", "texttt", "textrm", "textup", "emph", "texttiny", "textscriptsize",
  "textfootnotesize", "textsmall", "textnormal", "textlarge", "texthuge", "text", "tt", "bf", "it", "sl", "sc", "sf", "rm", "em",
  "bold", "rmfamily", "sffamily", "ttfamily", "itshape", "scshape", "upshape", "slshape", "bfseries", "mdseries", "normalfont",
  "textup", "textnormal", "textmd", "unboldmath", "boldmath", "mathversion{bold}", "mathversion{normal}", "tiny", "scriptsize",
  "footnotesize", "small", "normalsize", "large", "Large", "LARGE", "huge", "Huge", "smaller", "larger"].map String.toList

/-- The entry `process_newcommand` makes, command_processor.py:177-251. -/
def newcommandEntry (cfg : Cfg) (content : Str) (numArgs : Nat) (defaults : List Str) (usage : Re) (mathOnly : Bool) : Entry :=
  let b := conditional cfg content usage
  ⟨b.2, if numArgs = 0 then .body b.1 else .args numArgs defaults b.1, mathOnly⟩

/-- Where an entry goes: into `let_commands` or into `commands`, and its key. -/
structure Place where
  isLet : Bool
  key : Str
deriving DecidableEq

/-- The place of the entry of a definition. -/
def Def.place : Def → Place
  | .newcommand n _ _ _ _ => ⟨false, n⟩
  | .alphabet c => ⟨false, stripBackslash c⟩
  | .futurelet n _ => ⟨false, n⟩
  | .let_ n _ _ => ⟨true, n⟩
  | .def_ n _ _ _ _ => ⟨false, n⟩
  | .newif n => ⟨false, "newif:".toList ++ n⟩
  | .newcounter n => ⟨false, "newcounter:".toList ++ n⟩
  | .newlength n => ⟨false, "newlength:".toList ++ n⟩
  | .newtoks n => ⟨false, "newtoks:".toList ++ n⟩
  | .newX n => ⟨false, "newX:".toList ++ n⟩
  | .paired n _ _ => ⟨false, n⟩

/-- The entry of a `\newcommand` unless its content seems to use the command, command_manager.py:81-97. -/
def guarded (usage : Re) (content : Str) (e : Entry) : Option (Except Unit (Option Entry)) :=
  if !content.isEmpty && (usage.search content).isSome then some (.ok none) else some (.ok (some e))

/-- `register_command`, command_manager.py:66-127, with `sty` for a token of a style file, whose content is then ignored
(`ignore_sty_commands` is on): the entry made, if any. `none`: does not end; `error`: raises. -/
def entryOf (cfg : Cfg) (p : Proc) (d : Def) (sty : Bool) : Option (Except Unit (Option Entry)) :=
  let content := fun c : Str => if sty then [] else c
  if d.name.isEmpty || whitelisted.contains d.name then some (.ok none)
  else
    match d with
    | .newcommand _ c numArgs defaults mathOnly =>
      guarded (d.usage cfg) (content c) (newcommandEntry cfg (content c) numArgs defaults (d.usage cfg) mathOnly)
    | .alphabet _ =>
      guarded (d.usage cfg) (content "#1".toList) (newcommandEntry cfg (content "#1".toList) 1 [] (d.usage cfg) true)
    | .futurelet _ c =>
      guarded (d.usage cfg) (content c) (newcommandEntry cfg (content c) 0 [] (d.usage cfg) false)
    | .let_ _ c _ =>
      -- process_let, command_processor.py:135-153
      match p.expand cfg (content c) true false with
      | none => none
      | some (.error e) => some (.error e)
      | some (.ok t) => some (.ok (some ⟨d.usage cfg, .const t, false⟩))
    | .def_ name params c edef _ =>
      -- process_newdef, command_processor.py:286-327: `definition` is rebound after the conditional has been read
      let n := (defBody cfg 1 (name ++ params)).2
      let b := if n = 0 then conditional cfg (content c) (d.usage cfg) else (.plain (content c), d.usage cfg)
      match (if edef then p.expand cfg (content c) true false else some (.ok (content c))) with
      | none => none
      | some (.error e) => some (.error e)
      | some (.ok t) =>
        let body := match b.1 with | .plain _ => Body.plain t | s => s
        some (.ok (some ⟨b.2, .groups (d.numGroups cfg) body, false⟩))
    | .newtoks _ => some (.ok (some ⟨d.usage cfg, .toks, false⟩))
    | .paired _ l r => some (.ok (some ⟨d.usage cfg, .paired l r, false⟩))
    | .newif _ => some (.ok (some ⟨d.usage cfg, .ignore, false⟩))
    | .newcounter _ => some (.ok (some ⟨d.usage cfg, .ignore, false⟩))
    | .newlength _ => some (.ok (some ⟨d.usage cfg, .ignore, false⟩))
    | .newX _ => some (.ok (some ⟨d.usage cfg, .ignore, false⟩))

/-- `self.commands[key] = entry` or `self.let_commands[key] = entry`. -/
def Proc.put (p : Proc) (pl : Place) (e : Entry) : Proc :=
  if pl.isLet then { p with lets := p.lets.set pl.key e } else { p with commands := p.commands.set pl.key e }

/-- `register_command`. -/
def register (cfg : Cfg) (p : Proc) (d : Def) (sty : Bool) : Option (Except Unit Proc) :=
  match entryOf cfg p d sty with
  | none => none
  | some (.error e) => some (.error e)
  | some (.ok none) => some (.ok p)
  | some (.ok (some e)) => some (.ok (p.put d.place e))

/-- The processor after a history of definitions. -/
def registerAll (cfg : Cfg) : Proc → List (Def × Bool) → Option (Except Unit Proc)
  | p, [] => some (.ok p)
  | p, (d, sty) :: ds =>
    match register cfg p d sty with
    | none => none
    | some (.error e) => some (.error e)
    | some (.ok p') => registerAll cfg p' ds

/-- `{**a, **b}`. -/
def merge {β} (a b : Dict β) : Dict β := b.foldl (fun d e => d.set e.1 e.2) a

/-- `get_command_iter(False)`, command_processor.py:117-133. -/
def Proc.entries (p : Proc) : List Entry := ((merge p.commands p.lets).map (·.2)).filter fun e => !e.mathOnly

/-- The first entry whose pattern matches at the start of the text. -/
def firstMatch (text : Str) : List Entry → Option (Entry × Match)
  | [] => none
  | e :: es =>
    match e.pattern.matchAt [] text with
    | some m => some (e, m)
    | none => firstMatch text es

/-- `START_CSNAME_PATTERN` and `END_CSNAME_PATTERN`, new_definition.py:32-33. -/
def startCsname : Re := .seq (.lit "\\csname".toList) (.nlook (.chr isLetter))
def endCsname : Re := .seq (.lit "\\endcsname".toList) (.nlook (.chr isLetter))

/-- `EXPAND_PATTERN`, new_definition.py:31. -/
def expandRe : Re :=
  .seq (.lit ['\\']) (.seq (.alt (.lit "expandafter".toList) (.lit "noexpand".toList))
    (.seq (.opt (.plus (.chr isWord))) (.nlook (.chr isLetter))))

/-- `CSNAME_PATTERN`, command_processor.py:23-25. -/
def csnameRe : Re := .seq startCsname (.seq (.group 1 (.star (.chr (· != '\n')))) endCsname)

/-- `extract_and_concat_nested_csname`, new_definition.py:118-133. -/
def concatCsname (content : Str) : Option (Str × Nat) :=
  match startCsname.matchAt [] content with
  | none => none
  | some _ =>
    match extractNestedPattern content startCsname endCsname with
    | none => none
    | some (_, e, inner) =>
      some (expandRe.sub (fun _ => []) (endCsname.sub (fun _ => []) (startCsname.sub (fun _ => []) inner)), e)

/-- `_handle_csname`, command_processor.py:445-456, called when no entry matches at the start of the text; then none matches in
its loop either. -/
def handleCsname (text : Str) : Str × Nat :=
  match csnameRe.matchAt [] text with
  | none => (text, 0)
  | some _ =>
    match concatCsname text with
    | none => (text, 0)
    | some (nested, e) => if nested.isEmpty then (text, 0) else ([], e)

/-- `can_handle`, command_processor.py:439-443. -/
def Proc.canHandle (p : Proc) (text : Str) : Bool :=
  (firstMatch text p.entries).isSome || (csnameRe.matchAt [] text).isSome

/-- `handle`, command_processor.py:458-478: the replacement and the end of what it replaces. -/
def Proc.handle (cfg : Cfg) (p : Proc) (text : Str) : Str × Nat :=
  match firstMatch text p.entries with
  | some (e, m) =>
    let r := e.handler.run cfg m text false
    if m.text = r.1 then ([], m.stop) else r
  | none => handleCsname text

end L2J.Cmds
