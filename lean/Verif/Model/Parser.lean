import Verif.Model.Preprocess
import Verif.Model.EnvToken
import Verif.Model.Author
import Verif.Model.CodeBlock
import Verif.Model.Legacy
import Verif.Model.Etoolbox
import Verif.Model.Packages
/-! Model of `LatexParser.parse`, latex2json/parser/tex_parser.py:141-638, over the models of its handlers.

Everything the loop does at a position looks only at the text from that position on (`content[current_pos:]`) and at whether a blank stands just before
it, so a state of the loop is that text and that flag. Tokens are dictionaries that `current_env` and `labels` refer to: a token carries a number, and the labels
are kept with the numbers of the tokens they were given to. `current_str`, `labels` as a dictionary, the log and `_unknown_commands` are not modelled. -/
namespace L2J.Psr
open Cmds

mutual
/-- A token: its number, its type, its content, its other keys (but not "labels", see above) and its styles (`none`: no such key). -/
inductive Tok where
  | mk (id : Nat) (type : Str) (content : Val) (fields : List (Str × Val)) (styles : Option (List Str))
/-- A value in a token: missing, `None`, a text, texts, tokens, lists of tokens, a truth value, a number, or an equation as equation.py makes it. -/
inductive Val where
  | absent
  | null
  | str (s : Str)
  | strs (l : List Str)
  | toks (l : List Tok)
  | lists (l : List (List Tok))
  | flag (b : Bool)
  | num (n : Nat)
  | eqn (t : Eqn.Tok)
end

def Tok.id : Tok → Nat | .mk i _ _ _ _ => i
def Tok.type : Tok → Str | .mk _ t _ _ _ => t
def Tok.content : Tok → Val | .mk _ _ c _ _ => c
def Tok.fields : Tok → List (Str × Val) | .mk _ _ _ f _ => f
def Tok.styles : Tok → Option (List Str) | .mk _ _ _ _ s => s
def Tok.setContent (c : Val) : Tok → Tok | .mk i t _ f s => .mk i t c f s
def Tok.setStyles (s : Option (List Str)) : Tok → Tok | .mk i t c f _ => .mk i t c f s
/-- `token[key] = v` for a key that is there. -/
def Tok.setField (k : Str) (v : Val) : Tok → Tok | .mk i t c f s => .mk i t c (f.map fun e => if e.1 = k then (k, v) else e) s
/-- `token.get(key)`. -/
def Tok.field (k : Str) (t : Tok) : Option Val := (t.fields.find? fun e => e.1 = k).map (·.2)

/-- The state of the parser and of its handlers. `labels`: the label and the token it was given to, in order. `ext` is the state of the handlers that are left open. -/
structure St (V X : Type) where
  proc : Proc
  keys : KeyVal.Defs
  ifs : List Str
  eqn : Eqn.State V
  env : EnvT.St
  aliases : Dict Str
  colors : Dict (Str × Str)
  labels : List (Nat × Str)
  cur : Option Nat
  next : Nat
  ext : X

/-- The result of a part of the parser: it does not end, it raises, it gives a negative position (some handlers do, and Python counts it from the end: not followed
further), or it gives a value. -/
inductive Res (V X α : Type) where
  | running
  | raised
  | outside
  | ok (st : St V X) (a : α)

/-- One thing after the other. -/
def Res.bind {V X α β} (r : Res V X α) (f : St V X → α → Res V X β) : Res V X β :=
  match r with
  | .running => .running
  | .raised => .raised
  | .outside => .outside
  | .ok st a => f st a

/-- The parameters of `parse` besides the text, :468-475. -/
structure Opts where
  lineBreak : Str
  unknown : Bool
  legacy : Bool

/-- Their defaults. -/
def Opts.default : Opts := ⟨['\n'], true, true⟩

/-- `self.parse`. -/
abbrev Parse (V X : Type) := Opts → St V X → Str → Res V X (List Tok)

/-- A handler that is left open: with `parse`, the state, the tokens so far and the text, it gives the tokens afterwards and the end. -/
abbrev Action (V X : Type) := Parse V X → St V X → List Tok → Str → Res V X (List Tok × Int)

/-- What the model leaves open: that of the preprocessor's model, the actions of boxes and etoolbox, of tables and of `\citetext`, `\frac`, `\textcolor` and the like (they
are accepted as in the code), `nfc` for `unicodedata.normalize("NFC", _)`, and what is done with bibliographies and included files. -/
structure Cfg (V X : Type) where
  cmds : Cmds.Cfg
  fmt : Str → Option Str → Str
  order : List Str
  eqFmt : Str → Str × Nat
  boxes : Boxes.Env V
  nfc : Str → Str
  package : Action V X
  table : Action V X
  style : Action V X
  bibliography : Parse V X → St V X → Str → Res V X Val
  bibFile : Parse V X → St V X → Str → Res V X Tok
  input : Parse V X → St V X → Str → Res V X (List Tok)

/-- A new token. -/
def St.fresh {V X} (st : St V X) : St V X := { st with next := st.next + 1 }
def newTok {V X} (st : St V X) (type : Str) (content : Val) (fields : List (Str × Val)) : Tok := .mk st.next type content fields none

/-- `_expand_command`, :141-148. -/
def expand {V X} (cfg : Cfg V X) (st : St V X) (s : Str) (ignoreUnicode math : Bool) : Res V X Str :=
  match st.proc.expand cfg.cmds s ignoreUnicode math with
  | none => .running
  | some (.error _) => .raised
  | some (.ok t) => .ok st t

/-- A text token without styles. -/
def plainText : Tok → Bool
  | .mk _ t (.str _) _ none => t = "text".toList
  | _ => false

/-- `tokens[-1]["content"] += …`, :207-209. -/
def joinText (s : Str) (space : Bool) : Tok → Tok
  | .mk i t (.str s0) f st => .mk i t (.str ((if space && !endsWith s0 [' '] then s0 ++ [' '] else s0) ++ s)) f st
  | t => t

/-- The length of a content; `none`: raises. -/
def Val.len : Val → Option Nat
  | .str s => some s.length
  | .strs l => some l.length
  | .toks l => some l.length
  | .lists l => some l.length
  | _ => none

/-- `add_token` on a dictionary, :186-216; `none`: raises. (A text token has a string as content.) -/
def addTok (t : Tok) (toks : List Tok) (space : Bool) : Option (List Tok) :=
  if plainText t then
    match toks.getLast?, t.content with
    | some last, .str s => if plainText last then some (toks.dropLast ++ [joinText s space last]) else some (toks ++ [t])
    | _, _ => some (toks ++ [t])
  else if t.type = "group".toList ∨ t.type = "environment".toList ∨ t.type = "list".toList then
    match t.content.len with
    | none => none
    | some n => if n < 1 then some toks else some (toks ++ [t])
  else some (toks ++ [t])

/-- `add_token` with the exception. -/
def add {V X} (st : St V X) (t : Tok) (toks : List Tok) (space : Bool) : Res V X (List Tok) :=
  match addTok t toks space with
  | none => .raised
  | some l => .ok st l

/-- `add_token` on a string: an empty one is not added. -/
def addStr {V X} (st : St V X) (s : Str) (toks : List Tok) (space : Bool) : Res V X (List Tok) :=
  if s.isEmpty then .ok st toks else add st.fresh (newTok st "text".toList (.str s) []) toks space

/-- The tokens of a group, one after the other, :515-517. -/
def addAll {V X} (st : St V X) (toks : List Tok) : List Tok → Res V X (List Tok)
  | [] => .ok st toks
  | t :: ts => (add st t toks false).bind fun st toks => addAll st toks ts

/-- `_handle_label`, :150-166. -/
def handleLabel {V X} (st : St V X) (l : Str) (toks : List Tok) : Res V X (List Tok) :=
  match st.cur with
  | some i => .ok { st with labels := st.labels ++ [(i, l)] } toks
  | none =>
    match toks.getLast? with
    | some t => .ok { st with labels := st.labels ++ [(t.id, l)] } toks
    | none => add st.fresh (newTok st "label".toList (.str l) []) toks false

/-- `self.parse(value)`: what is not a text is given back, :489-490. -/
def parseVal {V X} (parse : Parse V X) (st : St V X) (v : Val) : Res V X Val :=
  match v with
  | .str s => (parse .default st s).bind fun st l => .ok st (.toks l)
  | v => .ok st v

/-- `token[key] = self.parse(token[key])` if the key is there. -/
def parseField {V X} (parse : Parse V X) (key : Str) (st : St V X) (t : Tok) : Res V X Tok :=
  match t.field key with
  | none => .ok st t
  | some v => (parseVal parse st v).bind fun st v => .ok st (t.setField key v)

/-- `token["content"] = self.parse(token["content"])`. -/
def parseContent {V X} (parse : Parse V X) (st : St V X) (t : Tok) : Res V X Tok :=
  (parseVal parse st t.content).bind fun st v => .ok st (t.setContent v)

/-- The comprehension of :386. -/
def expandAll {V X} (cfg : Cfg V X) (st : St V X) : List Str → Res V X (List Str)
  | [] => .ok st []
  | c :: l => (expand cfg st c false false).bind fun st c => (expandAll cfg st l).bind fun st l => .ok st (c :: l)

/-- `title` as a key. -/
def titleKey : Str := "title".toList

/-- `if token.get("content")` of :402. -/
def Val.truthy : Val → Bool
  | .absent | .null => false
  | .str s => !s.isEmpty
  | .strs l => !l.isEmpty
  | .toks l => !l.isEmpty
  | .lists l => !l.isEmpty
  | .flag b => b
  | .num n => n != 0
  | .eqn _ => true

/-- `_process_token` on a dictionary, :356-412, up to `add_token`. -/
def prepare {V X} (cfg : Cfg V X) (parse : Parse V X) (env : Bool) (st : St V X) (t : Tok) : Res V X Tok :=
  if t.type = "bibliography".toList then
    match t.content with
    | .str s => (cfg.bibliography parse st s).bind fun st v => .ok st (t.setContent v)
    | _ => .ok st t
  else if t.type = "bibliography_file".toList then
    match t.content with
    | .str s => if s.isEmpty then .ok st t else cfg.bibFile parse st s
    | _ => .ok st t
  else if t.type = "footnote".toList ∨ t.type = "caption".toList then parseContent parse { st with cur := some t.id } t
  else if t.type = "url".toList then
    (parseField parse titleKey st t).bind fun st t =>
      match t.content with
      | .str s => (expand cfg st s false false).bind fun st s => .ok st (t.setContent (.str s))
      | _ => .ok st t
  else if t.type = "ref".toList then
    match t.content with
    | .strs l => (expandAll cfg st l).bind fun st l => parseField parse titleKey st (t.setContent (.strs l))
    | _ => parseField parse titleKey st t
  else if t.type = "citation".toList then parseField parse titleKey st t
  else if t.type = "title".toList then parseContent parse st t
  else if t.type = "section".toList ∨ t.type = "paragraph".toList then parseField parse titleKey { st with cur := some t.id } t
  else if t.type = "abstract".toList then parseContent parse st t
  else if env then
    (if t.content.truthy && !(t.type = "algorithmic".toList || t.type = "tabular".toList) then
      (parseContent parse { st with cur := some t.id } t).bind fun st1 t => .ok { st1 with cur := st.cur } t
    else .ok st t).bind fun st t => parseField parse titleKey st t
  else .ok st t

/-- `_process_token` on a dictionary; a file to be included is replaced by its tokens, :366-375. -/
def processTok {V X} (cfg : Cfg V X) (parse : Parse V X) (env : Bool) (st : St V X) (t : Tok) (toks : List Tok) : Res V X (List Tok) :=
  if t.type = "input_file".toList then
    match t.content with
    | .str s => if s.isEmpty then .ok st toks else (cfg.input parse st s).bind fun st l => .ok st (toks ++ l)
    | _ => .ok st toks
  else (prepare cfg parse env st t).bind fun st t => add st t toks false

/-- `_process_token` on a list, :352-355. -/
def processAll {V X} (cfg : Cfg V X) (parse : Parse V X) (st : St V X) (toks : List Tok) : List Tok → Res V X (List Tok)
  | [] => .ok st toks
  | t :: ts => (processTok cfg parse false st t toks).bind fun st toks => processAll cfg parse st toks ts

/-! ## The handlers, :66-103. Each gives the tokens afterwards and the end, or `none` if it does not accept the text. -/

/-- The keys of BOX_DELIMITERS, boxes.py:14-30, one word for each of `[fhv]box`. -/
def boxWords : List Str := ["fbox", "hbox", "vbox", "parbox", "makebox", "framebox", "raisebox", "colorbox", "fcolorbox", "scalebox", "mbox", "pbox", "resizebox",
  "rotatebox", "adjustbox"].map String.toList
def openRe : Re := .seq (.star reSpace) (.chr fun c => c == '[' || c == '{')
def boxRes : List Re := boxWords.map (fun w => .seq (.lit ('\\' :: w)) openRe) ++
  [.seq (.lit "\\hbox".toList) (.seq (.plus reSpace) (.seq (.lit "to".toList) (.seq (.star reSpace) (.seq (.plus (.chr (· != '{'))) openRe))))]
def headWords : List Str := ["fancyhead", "fancyheadoffset", "rhead", "chead", "lhead"].map String.toList
def headRes : List Re := headWords.map fun w => .seq (.lit ('\\' :: w)) (.seq (.star reSpace) (.seq Fmt.optArg (.seq (.star reSpace) (.lit ['{']))))

/-- etoolbox.py:7-14. -/
def etoolWords : List Str := ["\\ifbool", "\\notbool", "\\newbool", "\\providebool", "\\setbool", "\\booltrue", "\\boolfalse"].map String.toList

/-- `can_handle` of the package handlers. -/
def packageAccepts (s : Str) : Bool :=
  (overpicRe.matchAt [] s).isSome || (libraryRe.matchAt [] s).isSome || (pictureRe.matchAt [] s).isSome || (plotsRe.matchAt [] s).isSome ||
  etoolWords.any (fun w => (Etool.matchKw w s).isSome) || titleRes.any (fun r => (r.matchAt [] s).isSome) ||
  boxRes.any (fun r => (r.matchAt [] s).isSome) || headRes.any (fun r => (r.matchAt [] s).isSome) || (Boxes.matchSaved s).isSome || (Boxes.matchSet s).isSome

/-- A token for what is read of a command that is handled with `_process_token`. -/
def single {V X} (cfg : Cfg V X) (parse : Parse V X) (env : Bool) (st : St V X) (toks : List Tok) (type : Str) (content : Val) (fields : List (Str × Val)) (stop : Nat) :
    Res V X (List Tok × Int) :=
  (processTok cfg parse env st.fresh (newTok st type content fields) toks).bind fun st toks => .ok st (toks, stop)

/-- The handlers of the packages; of those not modelled in Model/Packages (boxes, etoolbox) the action is left open. (No text is accepted by two of them, so their
place in the order of packages/__init__.py:11-20 does not matter.) -/
def package {V X} (cfg : Cfg V X) (parse : Parse V X) (st : St V X) (toks : List Tok) (s : Str) : Res V X (List Tok × Int) :=
  match Pkg.handle s with
  | none => cfg.package parse st toks s
  | some (none, e) => .ok st (toks, e)
  | some (some (.diagram n c), e) =>
    (processTok cfg parse false st.fresh (newTok st "diagram".toList (.str c) [("name".toList, .str n)]) toks).bind fun st toks => .ok st (toks, e)
  | some (some (.graphic f), e) => (processTok cfg parse false st.fresh (newTok st "includegraphics".toList (.str f) []) toks).bind fun st toks => .ok st (toks, e)

/-- The parts of an `\author`, one after the other, author.py:55-65. -/
def parseParts {V X} (parse : Parse V X) (st : St V X) : List Str → Res V X (List (List Tok))
  | [] => .ok st []
  | p :: ps => (parse .default st p).bind fun st l => (parseParts parse st ps).bind fun st ls => .ok st (if l.isEmpty then ls else l :: ls)

/-- `AuthorHandler`, author.py. What it passes to `parse` is left unparsed by the model of the handler, and parsed here. -/
def author {V X} (cfg : Cfg V X) (parse : Parse V X) (st : St V X) (toks : List Tok) (s : Str) : Option (Res V X (List Tok × Int)) :=
  match Author.handle (fun t => [t]) s with
  | none => none
  | some (.error _) => some .raised
  | some (.ok (.nothing, e)) => some (.ok st (toks, e))
  | some (.ok (.authors l, e)) =>
    some ((parseParts parse st l.flatten).bind fun st ls => single cfg parse false st toks "author".toList (.lists ls) [] e)
  | some (.ok (.footnote c, e)) => some (single cfg parse false st toks "footnote".toList (match c with | some t => .str t | none => .null) [] e)
  | some (.ok (.field type c, e)) =>
    some (match c with
      | none => single cfg parse false st toks type .null [] e
      | some l => (parse .default st l.flatten).bind fun st l => single cfg parse false st toks type (.toks l) [] e)

/-- The text of an equation as it is given to `process_content_fn`, equation.py:177-219. -/
def mathText (order : List Str) (fuel : Nat) (s : Str) : Option Str :=
  match Eqn.firstKind s (Eqn.kinds order) with
  | none => none
  | some (k, m) => if (strip m.1).isEmpty then none else Eqn.convertPairs fuel (Eqn.handleLabels (Eqn.body k m s).1).1

/-- The equation handler for a text and what the expansion gives. -/
def equationWith {V X} (cfg : Cfg V X) (parse : Parse V X) (fuel : Nat) (st : St V X) (toks : List Tok) (s t : Str) : Res V X (List Tok × Int) :=
  match Eqn.handle cfg.order (fun _ => t) cfg.eqFmt cfg.boxes fuel st.eqn s with
  | .running => .running
  | .raised => .raised
  | .ok e none pos => .ok { st with eqn := e } (toks, pos)
  | .ok e (some q) pos => single cfg parse false { st with eqn := e } toks "equation".toList (.eqn q) [] pos

/-- `EquationHandler`, equation.py; `process_content_fn` is the expansion of commands in math mode, :79-81. -/
def equation {V X} (cfg : Cfg V X) (parse : Parse V X) (fuel : Nat) (st : St V X) (toks : List Tok) (s : Str) : Option (Res V X (List Tok × Int)) :=
  if (Eqn.firstKind s (Eqn.kinds cfg.order)).isSome then
    some (match mathText cfg.order fuel s with
      | none => equationWith cfg parse fuel st toks s []
      | some x => (expand cfg st x true true).bind fun st t => equationWith cfg parse fuel st toks s t)
  else none

/-- A key that is there only if it has a value. -/
def optField (k : String) (v : Option Val) : List (Str × Val) := v.toList.map fun v => (k.toList, v)

/-- `CodeBlockHandler`, code_block.py. -/
def code {V X} (cfg : Cfg V X) (parse : Parse V X) (st : St V X) (toks : List Tok) (s : Str) : Option (Res V X (List Tok × Int)) :=
  match Code.handle s with
  | none => none
  | some (t, e) => some (single cfg parse false st toks "code".toList (.str t.content)
      (optField "title" (t.title.map .str) ++ optField "display" (if t.inline then some (.str "inline".toList) else none)) e)

/-- `ItemHandler`, item.py. It is an environment handler. -/
def item {V X} (cfg : Cfg V X) (parse : Parse V X) (st : St V X) (toks : List Tok) (s : Str) : Option (Res V X (List Tok × Int)) :=
  if EnvT.isItem s then
    some (match EnvT.handleItem s with
      | .raises => .raised
      | .ok none e => .ok st (toks, e)
      | .ok (some t) e => single cfg parse true st toks "item".toList (.str t.content) (optField "title" (t.title.map .str)) e)
  else none

/-- A token of content_command.py. -/
def contentTok {V X} (st : St V X) (t : Content.CTok) : Tok :=
  newTok st t.type (match t.content with | .absent => .absent | .str s => .str s | .keys l => .strs l)
    (optField "title" (t.title.map .str) ++ optField "level" (t.level.map .num) ++ optField "numbered" (t.numbered.map .flag) ++ optField "page" (t.page.map .num) ++
      optField "pages" (t.pages.map .str))

/-- Its tokens, one after the other. -/
def contentToks {V X} (cfg : Cfg V X) (parse : Parse V X) (st : St V X) (toks : List Tok) : List Content.CTok → Res V X (List Tok)
  | [] => .ok st toks
  | t :: ts => (processTok cfg parse false st.fresh (contentTok st t) toks).bind fun st toks => contentToks cfg parse st toks ts

/-- `ContentCommandHandler`, content_command.py. -/
def content {V X} (cfg : Cfg V X) (parse : Parse V X) (st : St V X) (toks : List Tok) (s : Str) : Option (Res V X (List Tok × Int)) :=
  if Content.canHandle s then
    some (match Content.handle id st.aliases s with
      | .raised => .raised
      | .ok al .none e => .ok { st with aliases := al } (toks, e)
      | .ok al (.tok t) e => (contentToks cfg parse { st with aliases := al } toks [t]).bind fun st toks => .ok st (toks, e)
      | .ok al (.toks l) e => (contentToks cfg parse { st with aliases := al } toks l).bind fun st toks => .ok st (toks, e))
  else none

/-- TABULAR_PATTERN, tabular.py:13-20. -/
def tableRe : Re :=
  .alt (.seq (.lit "\\begin".toList) (.seq (.star reSpace) (.seq (.lit ['{']) (.seq (.alt (.lit "tabular".toList) (.alt (.lit "longtable".toList)
    (.alt (.lit "tabularx".toList) (.lit "tabulary".toList)))) (.seq (.opt (.lit ['*'])) (.lit ['}']))))))
  (.seq (.lit "\\tabular".toList) (.nlook (.chr isNameChar)))

/-- `EnvironmentHandler.can_handle`, environment.py:482-487. -/
def envAccepts (s : Str) : Bool := (EnvT.envMatch s).isSome || (EnvT.groupMatch s).isSome || (Envs.matchNew s).isSome

/-- `EnvironmentHandler`, environment.py. -/
def environment {V X} (cfg : Cfg V X) (parse : Parse V X) (st : St V X) (toks : List Tok) (s : Str) : Option (Res V X (List Tok × Int)) :=
  if envAccepts s then
    some (match EnvT.handle cfg.cmds.alpha st.env s with
      | .raises => .raised
      | .ok envs none e => .ok { st with env := { st.env with envs := envs } } (toks, e)
      | .ok envs (some t) e => single cfg parse true { st with env := { st.env with envs := envs } } toks t.type (.str t.content)
          ([("name".toList, .str t.name)] ++ (if t.numbered then [("numbered".toList, .flag true)] else []) ++ optField "title" (t.title.map .str) ++
            (if t.args.isEmpty then [] else [("args".toList, .strs t.args)])) e)
  else none

/-- `ForLoopHandler`, for_loop_statements.py: loops are dropped. -/
def forloopRe : Re := .seq (.lit "\\forloop".toList) (.seq (.star reSpace) (.lit ['{']))
def foreachRe : Re := .seq (.lit "\\foreach".toList) (.seq (.plus reSpace) (.seq (.plus (.chr (· != '\n'))) (.seq (.star reSpace) (.lit ['{']))))
def forLoop {V X} (st : St V X) (toks : List Tok) (s : Str) : Option (Res V X (List Tok × Int)) :=
  match forloopRe.matchAt [] s with
  | some m => some (.ok st (toks, (m.stop - 1 + (seqBlocks (s.drop (m.stop - 1)) '{' '}' (some 4)).2 : Nat)))
  | none =>
    match foreachRe.matchAt [] s with
    | some m => some (.ok st (toks, (m.stop - 1 + (seqBlocks (s.drop (m.stop - 1)) '{' '}' (some 2)).2 : Nat)))
    | none => none

/-- The styles of `_handle_styled`, text_formatting.py:143-163: a single token gets the key in any case. -/
def styled (style : Option Str) : List Tok → List Tok
  | [t] => [t.setStyles (some (Style.dedup (style.toList ++ t.styles.getD [])))]
  | l => match style with | some st => l.map fun t => t.setStyles (some (st :: t.styles.getD [])) | none => l

/-- What is left of text_formatting.py is accepted if one of these patterns matches. -/
def styleAccepts (s : Str) : Bool :=
  (Style.openAfter "\\citetext".toList '{' s).isSome || (Style.fonts s).isSome ||
  (Style.firstOpen '{' s ["\\frac".toList, "\\nicefrac".toList, "\\textfrac".toList]).isSome || (Style.openAfter "\\texorpdfstring".toList '{' s).isSome ||
  (Style.colorMatch s).isSome || (Style.columnsMatch s).isSome || (Style.openAfter "\\subfloat".toList '[' s).isSome || (Style.romanMatch s).isSome

/-- `TextFormattingHandler`, text_formatting.py: what `_handle_styled` passes to `parse` is left unparsed by the model of the handler, and parsed here. -/
def style {V X} (cfg : Cfg V X) (parse : Parse V X) (st : St V X) (toks : List Tok) (s : Str) : Option (Res V X (List Tok × Int)) :=
  match Style.styledName s with
  | some (n, r) =>
    some (match Style.handleStyled (fun t => [.other t []]) s n r with
      | .raised => .raised
      | .ok (.one (.other t _)) e =>
        (parse .default st t).bind fun st l =>
          (processAll cfg parse st toks (styled ((Dict.get? Style.mapping n).getD none) l)).bind fun st toks => .ok st (toks, e)
      | .ok _ e => .ok st (toks, e))
  | none => if styleAccepts s then some (cfg.style parse st toks s) else none

/-- `strip_trailing_number_from_token`, formatting.py:292-311, on the last token. -/
def stripNumber (toks : List Tok) : List Tok :=
  match toks.getLast? with
  | some (.mk i t (.str s) f st) => if t = "text".toList then toks.dropLast ++ [.mk i t (.str (Fmt.stripTrailingNumber s)) f st] else toks
  | _ => toks

/-- `FormattingHandler`, formatting.py. -/
def formatting {V X} (cfg : Cfg V X) (parse : Parse V X) (st : St V X) (toks : List Tok) (s : Str) : Option (Res V X (List Tok × Int)) :=
  if Fmt.canHandle s then
    some (match Fmt.handle cfg.fmt s with
      | .error _ => .raised
      | .ok r =>
        let toks := if r.strips then stripNumber toks else toks
        match r.out with
        | .nothing => .ok st (toks, r.stop)
        | .text t => single cfg parse false st toks "text".toList (.str t) [] r.stop
        | .equation c => single cfg parse false st toks "equation".toList (match c with | some t => .str t | none => .null) [("display".toList, .str "inline".toList)] r.stop)
  else none

/-- The keys of ACCENT_MAP, diacritics.py:9-41. -/
def accentMarks : List Str := ["'", "`", "\"", "^", "~", "="].map String.toList
def accentNames1 : List Str := ["c", "H", "k", "b"].map String.toList
def accentDot : List Str := ["."].map String.toList
def accentNames2 : List Str := ["d", "r", "u", "v", "vec", "dot", "hat", "check", "breve", "acute", "grave", "tilde", "bar", "ddot", "not"].map String.toList

/-- `\S`. -/
def nonSpace : Re := .chr fun c => !isSpace c

/-- The patterns of diacritics.py:44-62. -/
def markRe (k : Str) : Re := .seq (.lit ('\\' :: k)) (.seq (.star reSpace) (.alt (.lit ['{']) nonSpace))
def nameAccentRe (k : Str) : Re :=
  .seq (.lit ('\\' :: k)) (.alt (.seq (.star reSpace) (.lit ['{'])) (.alt (.seq (.plus reSpace) nonSpace) (.seq (.nlook (.chr isNameChar)) nonSpace)))
def accents : List (Str × Re) :=
  accentMarks.map (fun k => (k, markRe k)) ++ accentNames1.map (fun k => (k, nameAccentRe k)) ++ accentDot.map (fun k => (k, markRe k)) ++
    accentNames2.map (fun k => (k, nameAccentRe k))

/-- The first pattern that matches. -/
def firstAccent (s : Str) : List (Str × Re) → Option (Str × Match)
  | [] => none
  | a :: l =>
    match a.2.matchAt [] s with
    | some m => some (a.1, m)
    | none => firstAccent s l

/-- `parse_diacritic_match`, diacritics.py:98-116: the text that gets the accent, and the end. -/
def accented (s : Str) (m : Match) : Str × Nat :=
  match m.text.getLast? with
  | some '{' =>
    match extractNestedContent (s.drop (m.stop - 1)) '{' '}' with
    | some (x :: xs, e) => (strip (x :: xs), m.stop + e - 1)
    | _ => (['{'], m.stop)
  | some c => ([c], m.stop)
  | none => ([], m.stop)

/-- ACCENT_MAP, diacritics.py:9-41, by code point. -/
def accentMap : List (Str × Nat) :=
  [("'", 0x301), ("`", 0x300), ("\"", 0x308), ("^", 0x302), ("~", 0x303), ("=", 0x304), ("c", 0x327), ("H", 0x30B), ("k", 0x328), ("b", 0x331), (".", 0x307), ("d", 0x323),
   ("r", 0x30A), ("u", 0x306), ("v", 0x30C), ("vec", 0x20D7), ("dot", 0x307), ("hat", 0x302), ("check", 0x30C), ("breve", 0x306), ("acute", 0x301), ("grave", 0x300),
   ("tilde", 0x303), ("bar", 0x305), ("ddot", 0x308), ("not", 0x338)].map fun e => (e.1.toList, e.2)

/-- `apply_accent`, diacritics.py:65-87. -/
def applyAccent (nfc : Str → Str) (base key : Str) : Str :=
  match base with
  | [] => []
  | c :: rest =>
    match accentMap.find? (·.1 == key) with
    | some e => nfc [c, Char.ofNat e.2] ++ rest
    | none => c :: rest

/-- `DiacriticsHandler`, diacritics.py:119-134. -/
def diacritics {V X} (cfg : Cfg V X) (parse : Parse V X) (st : St V X) (toks : List Tok) (s : Str) : Option (Res V X (List Tok × Int)) :=
  match firstAccent s accents with
  | none => none
  | some (k, m) => some (single cfg parse false st toks "text".toList (.str (applyAccent cfg.nfc (accented s m).1 k)) [] (accented s m).2)

/-- The first of several. -/
def orElse {α} (a : Option α) (b : Option α) : Option α := match a with | some x => some x | none => b

/-- `_check_handlers`, :416-433. -/
def handlers {V X} (cfg : Cfg V X) (parse : Parse V X) (fuel : Nat) (st : St V X) (toks : List Tok) (s : Str) : Option (Res V X (List Tok × Int)) :=
  orElse (if packageAccepts s then some (package cfg parse st toks s) else none) <|
  orElse (author cfg parse st toks s) <|
  orElse (equation cfg parse fuel st toks s) <|
  orElse (code cfg parse st toks s) <|
  orElse (item cfg parse st toks s) <|
  orElse (content cfg parse st toks s) <|
  orElse (if (tableRe.matchAt [] s).isSome then some (cfg.table parse st toks s) else none) <|
  orElse (environment cfg parse st toks s) <|
  orElse (forLoop st toks s) <|
  orElse (style cfg parse st toks s) <|
  orElse (formatting cfg parse st toks s) <|
  diacritics cfg parse st toks s

/-- PATTERNS, patterns.py:46-63. -/
def labelRe : Re := .seq (.lit "\\label".toList) (.seq (.star reSpace) (.lit ['{']))
def newlineRe : Re := .seq (.alt (.lit "\\newline".toList) (.lit "\\linebreak".toList)) (.nlook (.chr isLetter))
def breakRe : Re := .seq (.lit ['\\', '\\']) (.opt (.seq (.star reSpace) (.seq (.lit ['[']) (.seq (.group 1 (.star (.chr (· != ']')))) (.lit [']'])))))
def continuationRe : Re := .seq (.lit ['\\']) (.alt reSpace .eos)

/-- `_check_remaining_patterns`, :435-466. -/
def remaining {V X} (o : Opts) (st : St V X) (toks : List Tok) (s : Str) : Option (Res V X (List Tok × Int)) :=
  match labelRe.matchAt [] s with
  | some m =>
    let p := m.stop - 1
    some (match extractNestedContent (s.drop p) '{' '}' with
      | none => .ok st (toks, p)
      | some (l, e) => if l.isEmpty then .ok st (toks, (p + e : Nat)) else (handleLabel st l toks).bind fun st toks => .ok st (toks, (p + e : Nat)))
  | none =>
  match newlineRe.matchAt [] s with
  | some m => some ((addStr st ['\n'] toks false).bind fun st toks => .ok st (toks, m.stop))
  | none =>
  match breakRe.matchAt [] s with
  | some m => some ((addStr st o.lineBreak toks false).bind fun st toks => .ok st (toks, m.stop))
  | none => (continuationRe.matchAt [] s).map fun m => .ok st (toks, m.stop)

/-- UNKNOWN_COMMAND_PATTERN, :43. -/
def unknownRe : Re := .seq (.lit ['\\']) (.seq (.plus (.chr fun c => isNameChar c || c == '*')) (.opt (.seq (.star reSpace) (.lit ['{']))))

/-- The token of `_check_unknown_command`, :238-246. -/
def unknownTok {V X} (st : St V X) (command expanded : Str) : Tok :=
  if startsWith expanded ['\\'] then
    let rest := if startsWith expanded command then expanded.drop command.length else expanded
    newTok st "command".toList (if rest.isEmpty then .absent else .str rest) [("command".toList, .str command)]
  else newTok st "text".toList (.str expanded) []

/-- `_check_unknown_command`, :218-250, and what is done with its token, :609-614. A command whose group is not closed raises: `None` and a text cannot be joined. -/
def unknown {V X} (cfg : Cfg V X) (st : St V X) (toks : List Tok) (s : Str) : Option (Res V X (List Tok × Int)) :=
  match unknownRe.matchAt [] s with
  | none => none
  | some m =>
    some (if endsWith m.text ['{'] then
      match extractNestedContent (s.drop (m.stop - 1)) '{' '}' with
      | none => .raised
      | some (inner, e) =>
        (expand cfg st (m.text ++ (inner ++ ['}'])) false false).bind fun st x =>
          (add st.fresh (unknownTok st m.text.dropLast x) toks false).bind fun st toks => .ok st (toks, (m.stop + e - 1 : Nat))
    else
      (expand cfg st m.text false false).bind fun st x => (add st.fresh (unknownTok st m.text x) toks false).bind fun st toks => .ok st (toks, m.stop))

/-! ## Definitions -/

/-- `register_command`. -/
def registerTok {V X} (cfg : Cfg V X) (st : St V X) (t : Defn.Tok) : Res V X Unit :=
  match t.registers with
  | none => .ok st ()
  | some d =>
    match register cfg.cmds st.proc d false with
    | none => .running
    | some (.error _) => .raised
    | some (.ok p) => .ok { st with proc := p } ()

/-- `_process_new_definition_token`, :252-281. -/
def learn {V X} (cfg : Cfg V X) (st : St V X) (t : Defn.Tok) : Res V X Unit :=
  match t with
  | .color n f v => .ok (if n.isEmpty then st else { st with colors := Dict.set st.colors n (f, v) }) ()
  | .floatname n title => .ok (if n.isEmpty then st else { st with env := { st.env with floats := Dict.set st.env.floats n title } }) ()
  | .theorem_ n title _ _ => .ok (if n.isEmpty then st else { st with env := { st.env with thms := Dict.set st.env.thms n title } }) ()
  | .cref _ _ _ => .ok st ()
  | .font n _ _ => if n.isEmpty then .ok st () else registerTok cfg st t
  | .cmd d =>
    if d.name.isEmpty then .ok st ()
    else
      let ifs := match d with | .newif n => n :: st.ifs | _ => st.ifs
      registerTok cfg { st with ifs := ifs } t

/-- `_check_for_new_definitions`, :283-288, with `process_definition`, command_manager.py:42-61, which registers the command a first time: the end. -/
def definitions {V X} (cfg : Cfg V X) (st : St V X) (s : Str) : Res V X Int :=
  if Defn.canHandle s then
    match Defn.handle s with
    | .error _ => .raised
    | .ok (none, e) => .ok st e
    | .ok (some t, e) => (registerTok cfg st t).bind fun st _ => (learn cfg st t).bind fun st _ => .ok st e
  else
    let k := KeyVal.handle cfg.cmds.alpha st.keys s
    -- neither kind of token has a "name"
    .ok { st with keys := k.1 } k.2.2

/-! ## The loop -/

/-- What an iteration leaves: the tokens, whether a blank stands before the rest, and the rest. -/
structure Left where
  toks : List Tok
  space : Bool
  rest : Str

/-- Does a blank stand behind what was read? -/
def endsBlank (space : Bool) (t : Str) : Bool :=
  match t.getLast? with
  | none => space
  | some c => isSpace c

/-- Moving on by an end position. -/
def move {V X} (space : Bool) (s : Str) (st : St V X) (toks : List Tok) (e : Int) : Res V X Left :=
  if e < 0 then .outside else .ok st ⟨toks, endsBlank space (s.take e.toNat), s.drop e.toNat⟩

/-- :595-636: handlers, remaining patterns, unknown commands, a single character. -/
def actHandlers {V X} (cfg : Cfg V X) (parse : Parse V X) (fuel : Nat) (o : Opts) (st : St V X) (toks : List Tok) (space : Bool) (s : Str) : Res V X Left :=
  match orElse (handlers cfg parse fuel st toks s) (orElse (remaining o st toks s) (if o.unknown then unknown cfg st toks s else none)) with
  | some r => r.bind fun st p => move space s st p.1 p.2
  | none => (addStr st (s.take 1) toks false).bind fun st toks => .ok st ⟨toks, endsBlank space (s.take 1), s.drop 1⟩

/-- :580-593: legacy formatting. -/
def actLegacy {V X} (cfg : Cfg V X) (parse : Parse V X) (fuel : Nat) (o : Opts) (st : St V X) (toks : List Tok) (space : Bool) (s : Str) : Res V X Left :=
  match (if o.legacy then Legacy.handle s else none) with
  | some (.error _) => .raised
  | some (.ok (t, e)) => if 0 < e then .ok st ⟨toks, space, t ++ s.drop e⟩ else actHandlers cfg parse fuel o st toks space s
  | none => actHandlers cfg parse fuel o st toks space s

/-- :566-578: conditionals. -/
def actIf {V X} (cfg : Cfg V X) (parse : Parse V X) (fuel : Nat) (o : Opts) (st : St V X) (toks : List Tok) (space : Bool) (s : Str) : Res V X Left :=
  match Cond.handle st.ifs s with
  | .raised => .raised
  | .token _ _ ifContent _ pos => if 0 < pos then .ok st ⟨toks, space, ifContent ++ s.drop pos⟩ else actLegacy cfg parse fuel o st toks space s
  | .notHandled => actLegacy cfg parse fuel o st toks space s

/-- :560-564: definitions. -/
def actDefine {V X} (cfg : Cfg V X) (parse : Parse V X) (fuel : Nat) (o : Opts) (st : St V X) (toks : List Tok) (space : Bool) (s : Str) : Res V X Left :=
  (definitions cfg st s).bind fun st e => if 0 < e then move space s st toks e else actIf cfg parse fuel o st toks space s

/-- :550-558: user-defined commands (`command_manager.handle`, command_manager.py:136-153; `can_handle` is true whenever the end is positive). -/
def act {V X} (cfg : Cfg V X) (parse : Parse V X) (fuel : Nat) (o : Opts) (st : St V X) (toks : List Tok) (space : Bool) (s : Str) : Res V X Left :=
  let k := KeyVal.handle cfg.cmds.alpha st.keys s
  let st := { st with keys := k.1 }
  if 0 < k.2.2 then .ok st ⟨toks, space, KeyVal.expansion k.2.1 ++ s.drop k.2.2⟩
  else
    let r := st.proc.handle cfg.cmds s
    if 0 < r.2 then .ok st ⟨toks, space, r.1 ++ s.drop r.2⟩ else actDefine cfg parse fuel o st toks space s

/-- Text before a delimiter, :538-544. -/
def addText {V X} (cfg : Cfg V X) (o : Opts) (st : St V X) (toks : List Tok) (space : Bool) (t : Str) : Res V X (List Tok) :=
  if o.unknown then (expand cfg st t false false).bind fun st t => addStr st t toks space else addStr st t toks space

/-- :521-636: from the search for a delimiter on. `none` for the rest: the loop is left. -/
def actText {V X} (cfg : Cfg V X) (parse : Parse V X) (fuel : Nat) (o : Opts) (st : St V X) (toks : List Tok) (space : Bool) (s : Str) : Res V X Left :=
  match Loop.delimPat.search s with
  | none => (addText cfg o st toks space (if endsWith s ['{'] then s.dropLast else s)).bind fun st toks => .ok st ⟨toks, false, []⟩
  | some m =>
    if 0 < m.start then
      let t := s.take m.start
      let t := if endsWith t ['{'] then t.dropLast else t
      (addText cfg o st toks space t).bind fun st toks => .ok st ⟨toks, endsBlank space t, s.drop t.length⟩
    else act cfg parse fuel o st toks space s

/-- :508-636: after blanks have been skipped. -/
def actAt {V X} (cfg : Cfg V X) (parse : Parse V X) (fuel : Nat) (o : Opts) (st : St V X) (toks : List Tok) (space : Bool) (s : Str) : Res V X Left :=
  if s.head? = some '{' then
    match extractNestedContent s '{' '}' with
    | some (inner, e) => (parse .default st inner).bind fun st l => (addAll st toks l).bind fun st toks => .ok st ⟨toks, endsBlank space (s.take e), s.drop e⟩
    | none => actText cfg parse fuel o st toks space s
  else actText cfg parse fuel o st toks space s

/-- The loop, :500-636. The fuel bounds the iterations and the depth. -/
def loop {V X} (cfg : Cfg V X) : Nat → Opts → St V X → List Tok → Bool → Str → Res V X (List Tok)
  | 0, _, _, _, _, _ => .running
  | n + 1, o, st, toks, space, s =>
    let space := endsBlank space (s.takeWhile isSpace)
    match s.dropWhile isSpace with
    | [] => .ok st toks
    | c :: t => (actAt cfg (fun o st s => loop cfg n o st [] false (stripLatexComments s)) n o st toks space (c :: t)).bind fun st l => loop cfg n o st l.toks l.space l.rest

/-- `parse`, :468-638, without preprocessing. -/
def parse {V X} (cfg : Cfg V X) (fuel : Nat) : Parse V X := fun o st s => loop cfg fuel o st [] false (stripLatexComments s)

end L2J.Psr
